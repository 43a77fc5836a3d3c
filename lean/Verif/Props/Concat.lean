import Verif.Proofs.Concat
import Verif.Props.CheckParts
import Verif.Props.CopyParts
import Verif.Props.PartsTools

/-!
# C94: uncompressed files put one behind the other
-/

set_option linter.unusedSectionVars false

namespace Warcio.Props

open ArchiveIter Checker Recompressor

section
variable [Zlib] [TameZlib] [Hashlib] [PyUni] {IsMember : Bytes → Bytes → Prop}

/-- C94: an iteration over `a ++ b`, where `a` is made of whole records, ends with a line, and `b` does not start
with a blank line.  Its first steps are those of an iteration over `a` alone, and the other ones those of an iteration
over `b`, with offsets that count from the beginning of `a`. -/
theorem C94_iterate (L : LawfulGzip IsMember) {f : FileObj} {bs : Nat} (h : Uncompressed f bs) {m : Nat} (hl : Lined f bs m) {io : IterOpts} (hc : io.checkDigests = none) {kf kf' : Option Format} {a b : Bytes} {k : Nat}
    (hf : f.rest = a ++ b) (ha : Complete io m 0 kf a k kf') (he : EndsLine a) (hb : blankLine (takeLine b) = false) {plan1 plan2 : List (List UserOp)} (hp : PlanOk (plan1 ++ plan2)) (hk : plan1.length = k) :
    ∃ it s1 s2 ws, openArchive f io bs kf = .ok it ∧ iterate it (plan1 ++ plan2) = s1 ++ s2 ∧ Parts io m 0 kf f.origin [] a plan1 s1 ∧ Parts io m k kf' (f.origin + len a) ws b plan2 s2 := by
  obtain ⟨it, h1, h2⟩ := C87_parts L h hl io kf
  have h3 := h2 _ hp
  rw [hf] at h3
  obtain ⟨s1, s2, ws, i1, i2, i3⟩ := parts_split hc hb ha (.inr he) hk h3
  rw [Nat.zero_add] at i3
  exact ⟨it, s1, s2, ws, h1, i1, i2, i3⟩

/-- C94: the index of `a ++ b` is that of `a` and, behind it, that of `b` with the offsets moved; it ends as that of `b`. -/
theorem C94_index (L : LawfulGzip IsMember) {f : FileObj} (h : Uncompressed f 16384) {m : Nat} (hl : Lined f 16384 m) (fields : List Str) (v : Bool) (ids : Nat → Str) {file base : Str} (hn : IsBasename file base) {kf' : Option Format} {a b : Bytes} {k : Nat}
    (hf : f.rest = a ++ b) (ha : Complete { noRecordParse := !fields.any (startsWith (lit "http:")), arc2warc := true, verifyHttp := v, ids := ids } m 0 none a k kf') (he : EndsLine a) (hb : blankLine (takeLine b) = false) :
    ∃ x es1 es2, Indexer.indexFile fields v ids file f = (x, es1 ++ es2) ∧
      Indexed { noRecordParse := !fields.any (startsWith (lit "http:")), arc2warc := true, verifyHttp := v, ids := ids } m base fields 0 f.origin a (.ok ()) es1 ∧
      Indexed { noRecordParse := !fields.any (startsWith (lit "http:")), arc2warc := true, verifyHttp := v, ids := ids } m base fields k (f.origin + len a) b x es2 := by
  obtain ⟨x, es, h1, h2⟩ := C89_index L h hl fields v ids hn
  rw [hf] at h2
  obtain ⟨es1, es2, rfl, i2, i3⟩ := indexed_split rfl hb ha rfl (.inr he) h2
  rw [Nat.zero_add] at i3
  exact ⟨x, es1, es2, h1, i2, i3⟩

/-- C94: the check of `a ++ b` judges the records of `a` as that of `a` does and those of `b` as that of `b` does. -/
theorem C94_check (L : LawfulGzip IsMember) {f : FileObj} (h : Uncompressed f 16384) {m : Nat} (hl : Lined f 16384 m) (verbose : Bool) (name : Str) {kf' : Option Format} {a b : Bytes} {k : Nat}
    (hf : f.rest = a ++ b) (ha : Complete { checkDigests := some .other } m 0 none a k kf') (he : EndsLine a) (hb : blankLine (takeLine b) = false) :
    ∃ x vs1 vs2 lines1 lines2, processOne verbose name f = (x, (vs1 ++ vs2).any (· == some false), if lines1 ++ lines2 = [] then [] else .file name :: (lines1 ++ lines2)) ∧
      CheckedParts { checkDigests := some .other } m verbose 0 none f.origin a (.ok ()) vs1 lines1 ∧ CheckedParts { checkDigests := some .other } m verbose k kf' (f.origin + len a) b x vs2 lines2 := by
  obtain ⟨x, vs, lines, h1, h2⟩ := C93_check L h hl verbose name
  rw [hf] at h1
  obtain ⟨vs1, vs2, out1, out2, rfl, rfl, i3, i4⟩ := checked_split rfl hb ha (.inr he) h1
  rw [Nat.zero_add] at i4
  exact ⟨x, vs1, vs2, out1, out2, h2, i3, i4⟩

/-- C94: the copies that `warcio recompress` makes of the records in `a ++ b` are those of `a` and those of `b`.  It gets to `b`
unless HTTP headers in `a` cannot be encoded. -/
theorem C94_recompress [Deflater] (L : LawfulGzip IsMember) (D : LawfulDeflater IsMember) {sha : Bytes → Bytes} (H : Hashlib.hash (lit "sha1") = some sha) {f : FileObj} (h : Uncompressed f 16384) {m : Nat} (hl : Lined f 16384 m) (c : BuilderCfg) (ids : Nat → Str)
    {kf' : Option Format} {a b : Bytes} {k : Nat} (hf : f.rest = a ++ b) (ha : Complete { noRecordParse := false, arc2warc := true, verifyHttp := false, ids := ids } m 0 none a k kf') (he : EndsLine a) (hb : blankLine (takeLine b) = false) :
    ∃ x rs z, loadAndWrite c ids f = (x.map (fun _ => rs.length), ({} : OutFile).extended z) ∧ (if c.gzip then ∃ zs, Each IsMember zs rs ∧ z = zs.flatten else z = rs.flatten) ∧
      ((∃ rs1 rs2, rs = rs1 ++ rs2 ∧ CopiedParts { noRecordParse := false, arc2warc := true, verifyHttp := false, ids := ids } sha c.filter m 0 a (.ok ()) rs1 ∧
          CopiedParts { noRecordParse := false, arc2warc := true, verifyHttp := false, ids := ids } sha c.filter m k b x rs2) ∨
        ∃ e, x = .error e ∧ CopiedParts { noRecordParse := false, arc2warc := true, verifyHttp := false, ids := ids } sha c.filter m 0 a x rs) := by
  obtain ⟨x, rs, z, h1, h2, h3⟩ := C91_copy L D H h hl c ids
  rw [hf] at h2
  have h4 := copied_split rfl hb ha rfl (.inr he) h2
  simp only [Nat.zero_add] at h4
  exact ⟨x, rs, z, h1, h3, h4⟩

end

/-! ## The hypotheses are met, and the claim that fails -/

section
variable [PyUni] [Hashlib]

/-- `data` starts with a whole record without digests. -/
def wholeAt (o : LoadOpts) (p : Portion) : Bool :=
  match Loader.detectType o p.all none with
  | (.ok (f, h), left) => left = p.block ++ p.tail ∧ p.head ≠ [] ∧ p.tail ≠ [] ∧ (Loader.fields f h).format = .warc ∧ Loader.blockLength (Loader.fields f h).length (Loader.fields f h).subLen = some (len p.block) ∧
      (Loader.fields f h).uri ≠ none ∧ firstValue (lit "WARC-Block-Digest") (Loader.fields f h).headers.headers = none ∧ firstValue (lit "WARC-Payload-Digest") (Loader.fields f h).headers.headers = none
  | _ => false

theorem complete_whole {io : IterOpts} {m : Nat} (hv : io.verifyHttp = false) (hc : io.checkDigests ≠ some .raise) {n : Nat} {kf kf' : Option Format} {p : Portion} {k : Nat} (h : wholeAt (io.load kf (io.ids n)) p = true)
    (hr : Complete io m (n + 1) (if io.arc2warc then kf else some .warc) (resumed p.tail) k kf') : Complete io m n kf p.all (k + 1) kf' := by
  unfold wholeAt at h
  cases hd : Loader.detectType (io.load kf (io.ids n)) p.all none with
  | mk r left =>
    rw [hd] at h
    cases r with
    | error e => cases h
    | ok fh =>
      obtain ⟨f, hs⟩ := fh
      simp only [decide_eq_true_eq] at h
      obtain ⟨rfl, h1, h2, h3, h4, h5, h6, h7⟩ := h
      have hu : (Loader.fields f hs).Usable := by
        unfold Loader.Fields.Usable DigestsUsable
        rw [h6, h7]
        intro data
        unfold lookedAt
        split
        · exact ⟨⟨_, .absent⟩, ⟨_, .absent⟩⟩
        · split
          · exact ⟨⟨_, .absent⟩, ⟨_, .absent⟩⟩
          · exact ⟨⟨_, .absent⟩, ⟨_, .absent⟩⟩
      let o := io.load kf (io.ids n)
      refine .record n kf p { format := .warc, recType := (Loader.fields f hs).recType, recHeaders := (Loader.fields f hs).headers, rawStream := (), contentType := (Loader.fields f hs).contentType, length := some (len p.block), httpHeaders := if o.ensureHttpHeaders then some (Loader.defaultHttpHeaders (some (len p.block)) (Loader.fields f hs).contentType) else none, checker := { kind := o.checkDigests.getD .other } } k kf' ⟨⟨f, hs, hd, h3.symm, rfl, rfl, rfl, h4.symm⟩, fun _ => ⟨rfl, rfl⟩, rfl, h1, ?_⟩ ?_ rfl h2 hr
      · exact (declared_all rfl).symm
      · refine not_over hd (by intro h; exact h2 (List.append_eq_nil_iff.1 h).2) (.inl hv) ?_ (.inr h5) (by intro h0; exact h1 (List.append_eq_nil_iff.1 (List.append_eq_nil_iff.1 h0).1).1)
        by_cases h0 : io.checkDigests = none
        · exact .inl h0
        · exact .inr ⟨hc, hu⟩

end

/-- A record with a target. -/
def exNote : Bytes := utf8Encode (lit "WARC/1.0\r\nWARC-Type: metadata\r\nWARC-Target-URI: http://x/\r\nContent-Length: 3\r\n\r\n")

/-- Two records, the first one with a line too much behind it. -/
def exBefore : Bytes := exLong.bytes ++ (exNote ++ utf8Encode (lit "a\r\n\r\n\r\n"))

open Toy in
theorem exBefore_complete {m : Nat} {io : IterOpts} (h : io = {} ∨ io = { noRecordParse := true, arc2warc := true } ∨ io = { arc2warc := true } ∨ io = { checkDigests := some .other }) : ∃ kf', Complete io m 0 none exBefore 2 kf' := by
  have e1 : exBefore = (⟨exLong.head, exLong.block, exLong.sep ++ (exNote ++ utf8Encode (lit "a\r\n\r\n\r\n"))⟩ : Portion).all := by decide +kernel
  have e2 : resumed (exLong.sep ++ (exNote ++ utf8Encode (lit "a\r\n\r\n\r\n"))) = (⟨exNote, utf8Encode (lit "a\r\n"), utf8Encode (lit "\r\n\r\n")⟩ : Portion).all := by decide +kernel
  have e3 : resumed (utf8Encode (lit "\r\n\r\n")) = [] := by decide +kernel
  refine ⟨if io.arc2warc then none else some .warc, ?_⟩
  rcases h with rfl | rfl | rfl | rfl
  all_goals
    rw [e1]
    refine complete_whole rfl (fun h => by cases h) (by decide +kernel) ?_
    rw [e2]
    refine complete_whole rfl (fun h => by cases h) (by decide +kernel) ?_
    rw [e3]
    exact .nil _ _

open Toy in
/-- The hypotheses of `C94_iterate`, `C94_index`, `C94_check` and `C94_recompress`: two records in front of two others and junk. -/
example : Uncompressed { content := exBefore ++ exParts.content } 16384 ∧ Lined { content := exBefore ++ exParts.content } 16384 16384 ∧ EndsLine exBefore ∧ blankLine (takeLine exParts.content) = false ∧
    ({ content := exBefore ++ exParts.content } : FileObj).rest = exBefore ++ exParts.content ∧ PlanOk ([wholeOps, wholeOps] ++ [wholeOps]) ∧ IsBasename (lit "/d/a.warc") (lit "a.warc") ∧ (∃ kf', Complete { checkDigests := some .other } 16384 0 none exBefore 2 kf') ∧
    (∃ kf', Complete { noRecordParse := !([lit "offset"] : List Str).any (startsWith (lit "http:")), arc2warc := true, verifyHttp := false, ids := fun _ => [] } 16384 0 none exBefore 2 kf') :=
  ⟨⟨by decide, by simp, fun _ => by decide +kernel, by decide +kernel⟩, .inr ⟨rfl, by decide⟩, ⟨exBefore.dropLast, by decide +kernel⟩, by decide +kernel, by simp [FileObj.rest], (by unfold PlanOk; decide), ⟨by decide, .inr ⟨lit "/d", rfl⟩⟩,
   exBefore_complete (.inr (.inr (.inr rfl))), exBefore_complete (.inr (.inl rfl))⟩

open Toy in
/-- The index of both files together. -/
example : Indexer.indexFile [lit "offset", lit "warc-type", lit "length"] false (fun _ => []) (lit "/d/a.warc") { content := exBefore ++ exParts.content } =
    (.error .unknownFormat, [[(lit "offset", lit "0"), (lit "warc-type", lit "response"), (lit "length", lit "108")], [(lit "offset", lit "116"), (lit "warc-type", lit "metadata"), (lit "length", lit "83")],
      [(lit "offset", lit "203"), (lit "warc-type", lit "response"), (lit "length", lit "108")], [(lit "offset", lit "319"), (lit "warc-type", lit "metadata"), (lit "length", lit "71")],
      [(lit "offset", lit "394"), (lit "warc-type", lit "response"), (lit "length", lit "108")]]) := by decide +kernel

set_option synthInstance.maxSize 1024 in
open Toy in
/-- C94 without the hypothesis that there is a line behind the last record of the first file: this is false.  The two files are
each indexed without an error, with one record in each.  In the file made of both, the first line of the second is taken for
the line behind the first, and the rest is no record. -/
theorem C94_glued : Indexer.indexFile [lit "offset"] false (fun _ => []) (lit "a") { content := exNote ++ utf8Encode (lit "a\r\n") } = (.ok (), [[(lit "offset", lit "0")]]) ∧
    Indexer.indexFile [lit "offset"] false (fun _ => []) (lit "a") { content := exInfo.bytes } = (.ok (), [[(lit "offset", lit "0")]]) ∧
    Indexer.indexFile [lit "offset"] false (fun _ => []) (lit "a") { content := exNote ++ utf8Encode (lit "a\r\n") ++ exInfo.bytes } = (.error .unknownFormat, [[(lit "offset", lit "0")]]) := by decide +kernel

end Warcio.Props
