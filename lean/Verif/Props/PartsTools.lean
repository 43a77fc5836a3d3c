import Verif.Proofs.PartsTools
import Verif.Props.Parts
import Verif.Props.Lookup

/-!
# Properties C89 and C90: index and extract for any uncompressed file

Specification: `Indexed`, `Portion.Shows` in `Verif/Spec/Parts.lean`.
-/

set_option linter.unusedSectionVars false

namespace Warcio.Props

open Warcio ArchiveIter BufReader

section
variable [Zlib] [Hashlib] [PyUni] {IsMember : Bytes → Bytes → Prop}

/-- C89: `warcio index` on any uncompressed file, whatever it holds and whatever fields are asked for:
one line for each record, in the order of the file; offset and length are those of the record
in the file, the other fields are what the loader makes of the bytes from there on.  It ends as
the iteration does. -/
theorem C89_index (L : LawfulGzip IsMember) {f : FileObj} (h : Uncompressed f 16384) {m : Nat} (hl : Lined f 16384 m) (fields : List Str) (v : Bool) (ids : Nat → Str) {file base : Str} (hb : IsBasename file base) :
    ∃ x es, Indexer.indexFile fields v ids file f = (x, es) ∧
      Indexed { noRecordParse := !fields.any (startsWith (lit "http:")), arc2warc := true, verifyHttp := v, ids := ids } m base fields 0 f.origin f.rest x es := by
  obtain ⟨V, it, hV, hX, k1, k2, k3⟩ := open_any L hl h.block h.first h.two h.magic (Indexer.opts fields v ids) none
  obtain ⟨x, es, m1, m2⟩ := indexLoop_any L hV hX rfl rfl hb (fields := fields) (PyStream.bound it.reader + 2) (next_start k2) k3 (by have := open_bound k1; omega)
  refine ⟨x, es, ?_, m2⟩
  unfold Indexer.indexFile
  rw [k1]
  exact m1

end

open Toy in
/-- A file of three records with junk behind: three lines, and then the exception of the loader. -/
example : Indexer.indexFile [lit "offset", lit "warc-type", lit "length", lit "http:status"] false (fun _ => []) (lit "/d/a.warc") exParts =
    (.error .unknownFormat, [[(lit "offset", lit "0"), (lit "warc-type", lit "response"), (lit "length", lit "108"), (lit "http:status", lit "200")],
      [(lit "offset", lit "116"), (lit "warc-type", lit "metadata"), (lit "length", lit "71")],
      [(lit "offset", lit "191"), (lit "warc-type", lit "response"), (lit "length", lit "108"), (lit "http:status", lit "200")]]) := by decide +kernel

open Toy in
/-- The file meets the hypotheses. -/
example : Uncompressed exParts 16384 ∧ Uncompressed { exParts with pos := 116 } 16384 ∧ Uncompressed { exParts with pos := 10 } 16384 ∧ exParts.seekable = true ∧ exParts.pos = 0 ∧ IsBasename (lit "a/b.arc") (lit "b.arc") ∧
    StartsWarc (exParts.content.drop 116) :=
  ⟨⟨by decide, by simp [exParts], fun _ => by decide +kernel, by decide +kernel⟩, ⟨by decide, by simp [exParts], fun _ => by decide +kernel, by decide +kernel⟩,
   ⟨by decide, by simp [exParts], fun _ => by decide +kernel, by decide +kernel⟩, rfl, rfl, ⟨by decide, .inr ⟨lit "a", rfl⟩⟩, lit "WARC/1.1", by decide, by decide +kernel⟩

section
variable [Zlib] [Hashlib] [PyUni] {IsMember : Bytes → Bytes → Prop}

/-- What `extract` prints of a record whose stream holds `left`. -/
def printed (rec : Record Unit) (left : Bytes) (payloadOnly headersOnly : Bool) : Bytes :=
  (if payloadOnly then [] else rec.recHeaders.toBytes ++ ((rec.httpShown.map StatusAndHeaders.toBytes).getD [])) ++
  (if headersOnly && !payloadOnly then [] else left)

/-- C90: `warcio extract` at any position in any file that is not compressed there: it fails with the
exception of the loader, or prints the headers and the end of the block of the record there;
for a record that is none of HTTP, all of the block, with and without `--payload`. -/
theorem C90_extract (L : LawfulGzip IsMember) {f : FileObj} (hs : f.seekable = true) {off : Nat} (h : Uncompressed { f with pos := off } 16384) {m : Nat} (hl : Lined f 16384 m) (payloadOnly headersOnly : Bool) :
    (∃ e, Over (({} : IterOpts).load none (({} : IterOpts).ids 0)) m (f.content.drop off) e ∧ Extractor.extract f off payloadOnly headersOnly = (.error e, [])) ∨
    (∃ (p : Portion) (rec : Record Unit) (left : Bytes), f.content.drop off = p.all ∧ p.Shows (({} : IterOpts).load none (({} : IterOpts).ids 0)) rec ∧
      p.Parsed (({} : IterOpts).load none (({} : IterOpts).ids 0)) m rec left ∧ left <:+ p.block ∧ (¬ HttpType rec.recType → left = p.block) ∧
      (payloadOnly = false ∨ ¬ HttpType rec.recType → Extractor.extract f off payloadOnly headersOnly = (.ok (), printed rec left payloadOnly headersOnly))) := by
  obtain ⟨V, it, hV, hX, k1, k2, k3⟩ := open_any L (f := { f with pos := off }) hl h.block h.first h.two h.magic {} none
  have hseek : f.seek off = .ok { f with pos := off } := by unfold FileObj.seek; rw [if_pos hs]
  have hneg : ¬ (off : Int) < 0 := by omega
  unfold Extractor.extract
  rw [if_neg hneg, Int.toNat_natCast, hseek]
  dsimp only
  rw [k1]
  dsimp only
  rw [next_start k2]
  rcases k3.load L hV hX _ with ⟨p, rec, left, it1, m1, m2, m3, m4, m4', m5, m6, m7⟩ | ⟨e, it1, m1, m2, m3⟩
  · right
    refine ⟨p, rec, left, m3, m4, m4', m5, fun h => m6 (.inr h), fun hp => ?_⟩
    rw [m1]
    dsimp only
    have hcur : it1.current = some { format := rec.format, recType := rec.recType, recHeaders := rec.recHeaders, rawStream := it1.raw, httpHeaders := rec.httpHeaders, contentType := rec.contentType, length := rec.length, payloadLength := rec.payloadLength, checker := rec.checker } := by
      unfold ArchiveIter.current
      rw [m2]
      rfl
    rw [hcur]
    dsimp only
    obtain ⟨bufs, raw', r1, r2, -⟩ := readAll_any L hV rfl (m := Extractor.readSize) (by decide) m7
    unfold Extractor.output printed
    have hhead : (match rec.httpHeaders with | some h => if h.truthy then h.toBytes else [] | none => []) = (rec.httpShown.map StatusAndHeaders.toBytes).getD [] := by
      cases hr : rec.httpHeaders with
      | none => simp [Record.httpShown, hr]
      | some hd =>
        rw [httpShown_some hr]
        cases ht : hd.truthy <;> simp [ht]
    cases payloadOnly with
    | false =>
      simp only [Bool.false_eq_true, if_false, Bool.not_false, Bool.and_true]
      cases headersOnly with
      | true =>
        simp only [if_true, List.append_nil]
        exact congrArg (fun z => (Except.ok (), rec.recHeaders.toBytes ++ z)) hhead
      | false =>
        simp only [Bool.false_eq_true, if_false]
        rw [r1]
        simp only [r2]
        exact congrArg (fun z => (Except.ok (), rec.recHeaders.toBytes ++ z ++ left)) hhead
    | true =>
      have hp : ¬ HttpType rec.recType := hp.resolve_left (fun h => by cases h)
      have hno : rec.httpHeaders = none := (m4.bare (.inr hp)).2
      simp only [if_true, Bool.not_true, Bool.and_false, Bool.false_eq_true, if_false, List.nil_append]
      have hcs : (Record.contentStream { format := rec.format, recType := rec.recType, recHeaders := rec.recHeaders, rawStream := it1.raw, httpHeaders := rec.httpHeaders, contentType := rec.contentType, length := rec.length, payloadLength := rec.payloadLength, checker := rec.checker } : Except PyErr (ContentStream (RawStream (BufReader Source)))) = .ok (.raw it1.raw) := by
        unfold Record.contentStream
        rw [hno]
      rw [hcs]
      dsimp only
      have hraw := readAllBlocks_raw Extractor.readSize it1.raw
      rw [r1] at hraw
      rw [hraw]
      dsimp only
      rw [r2]
  · left
    refine ⟨e, m3, ?_⟩
    rw [m1]

end

open Toy in
/-- In the middle of a record there is none; at the second record of the file its block is printed. -/
example : Extractor.extract exParts 10 true false = (.error .unknownFormat, []) ∧ Extractor.extract exParts 116 true false = (.ok (), exInfo.block) := by decide +kernel

/-! ## Looking up the record of a line of the index -/

section
variable [Zlib] [Hashlib] [PyUni] {IsMember : Bytes → Bytes → Prop}

/-- If there is a WARC record, what else the loader is told does not matter. -/
theorem detect_same {o o' : LoadOpts} (hk : o.knownFormat = none) (hk' : o'.knownFormat = none) {full : Str} {ls ls' : List Bytes} {hd : StatusAndHeaders}
    (hx : Loader.detectLines o full ls = (.ok (.warc, hd), ls')) : Loader.detectLines o' full ls = (.ok (.warc, hd), ls') := by
  unfold Loader.detectLines at hx ⊢
  rw [hk] at hx
  rw [hk']
  rw [if_neg (by decide)] at hx ⊢
  cases hp : Loader.warcParser.parseLines full ls with
  | mk y l2 =>
  rw [hp] at hx
  cases y with
  | ok v => exact hx
  | error e =>
    exfalso
    cases e <;> first
      | cases hx; done
      | (dsimp only at hx
         rw [if_neg (by decide)] at hx
         unfold Loader.detectArcLines at hx
         generalize Loader.arcLines o _ _ = z at hx
         obtain ⟨z, l3⟩ := z
         cases z with
         | error e => cases e <;> cases hx
         | ok v => cases ha : o.arc2warc <;> rw [ha] at hx <;> cases hx)

theorem detect_agree {o o' : LoadOpts} (hk : o.knownFormat = none) (hk' : o'.knownFormat = none) {data left : Bytes} (hw : StartsWarc data) {f : HeadFormat} {hd : StatusAndHeaders}
    (h : Loader.detectType o data none = (.ok (f, hd), left)) : Loader.detectType o' data none = (.ok (f, hd), left) := by
  obtain ⟨h0, q1, -, -⟩ := Loader.detect_warc (o := o) (by rw [hk]; decide) hw
  have q2 := detect_same hk hk' q1
  obtain ⟨s1, m1, m2⟩ := Loader.detect_stream Bytes.exactRead.lineRead o (s := data) (data := data) rfl
  obtain ⟨s2, r1, r2⟩ := Loader.detect_stream Bytes.exactRead.lineRead o' (s := data) (data := data) rfl
  rw [q1] at m1 m2
  rw [q2] at r1 r2
  rw [m1] at h
  rw [r1, r2, ← h, m2]

theorem shows_warc {o o' : LoadOpts} (hk : o.knownFormat = none) (hk' : o'.knownFormat = none) {p p' : Portion} (ha : p'.all = p.all) (hw : StartsWarc p.all) {rec rec' : Record Unit} (hs : p.Shows o rec) (hs' : p'.Shows o' rec') :
    p' = p ∧ rec'.recType = rec.recType ∧ rec'.recHeaders = rec.recHeaders := by
  obtain ⟨⟨f, hd, d1, d2, d3, d4, d5, d6⟩, b1, c1, n1, e1⟩ := hs
  obtain ⟨⟨f', hd', d1', d2', d3', d4', d5', d6'⟩, b1', c1', n1', e1'⟩ := hs'
  have q := detect_agree hk hk' hw d1
  rw [← ha, d1'] at q
  simp only [Prod.mk.injEq, Except.ok.injEq] at q
  obtain ⟨⟨rfl, rfl⟩, hbt⟩ := q
  have hlen : rec'.length = rec.length := d6'.trans d6.symm
  have hblock : p'.block = p.block := by rw [e1', hbt, hlen, ← e1]
  have htail : p'.tail = p.tail := by rw [hblock] at hbt; exact List.append_cancel_left hbt
  have hhead : p'.head = p.head := by
    unfold Portion.all at ha
    rw [hblock, htail] at ha
    exact List.append_cancel_right (List.append_cancel_right ha)
  exact ⟨portion_ext hhead hblock htail, d3'.trans d3.symm, d4'.trans d4.symm⟩

theorem shows_length {o o' : LoadOpts} (hk : o.knownFormat = none) (hk' : o'.knownFormat = none) {p : Portion} (hw : StartsWarc p.all) {rec rec' : Record Unit} (hs : p.Shows o rec) (hs' : p.Shows o' rec') :
    rec'.length = rec.length := by
  obtain ⟨⟨f, hd, d1, -, -, -, -, d6⟩, -⟩ := hs
  obtain ⟨⟨f', hd', d1', -, -, -, -, d6'⟩, -⟩ := hs'
  have q := detect_agree hk hk' hw d1
  rw [d1'] at q
  simp only [Prod.mk.injEq, Except.ok.injEq] at q
  obtain ⟨⟨rfl, rfl⟩, -⟩ := q
  rw [d6', d6]

theorem cleaned_one {hs hs' : List (Str × Str)} (h : WarcRecord.Cleaned hs hs') {n : Str} (h1 : AtMostOne n hs') : AtMostOne n hs := by
  cases h with
  | same _ => exact h1
  | changed pre n' u0 u v post =>
    unfold AtMostOne at h1 ⊢
    simp only [List.filter_append, List.filter_cons, List.length_append] at h1 ⊢
    split <;> rename_i hx
    · rw [if_pos hx] at h1
      simpa using h1
    · rw [if_neg hx] at h1
      exact h1

/-- Type and target of a WARC record. -/
theorem shows_http {o o' : LoadOpts} (hk : o.knownFormat = none) (hk' : o'.knownFormat = none) {p : Portion} (hw : StartsWarc p.all) {rec : Record Unit} (hs : p.Shows o rec) (h1 : AtMostOne (lit "WARC-Target-URI") rec.recHeaders.headers) {f : HeadFormat} {h : StatusAndHeaders} {left : Bytes}
    (hx : Loader.detectType o' p.all none = (.ok (f, h), left)) :
    (Loader.fields f h).recType = rec.recType ∧ (Loader.fields f h).uri = firstValue (lit "WARC-Target-URI") rec.recHeaders.headers := by
  obtain ⟨⟨f', hd, d1, -, d3, d4, -⟩, -⟩ := hs
  have q := detect_agree hk hk' hw d1
  rw [hx] at q
  simp only [Prod.mk.injEq, Except.ok.injEq] at q
  obtain ⟨⟨rfl, rfl⟩, -⟩ := q
  obtain ⟨h0, q1, -, -⟩ := Loader.detect_warc (o := o) (by rw [hk]; decide) hw
  obtain ⟨s1, m1, -⟩ := Loader.detect_stream Bytes.exactRead.lineRead o (s := p.all) (data := p.all) rfl
  rw [q1, d1] at m1
  simp only [Prod.mk.injEq, Except.ok.injEq] at m1
  obtain ⟨⟨rfl, -⟩, -⟩ := m1
  refine ⟨d3.symm, ?_⟩
  rw [d4, Loader.firstValue_eq]
  show (Loader.ensureTargetUri h).1 = (Loader.ensureTargetUri h).2.getHeader (lit "WARC-Target-URI")
  rw [d4] at h1
  have h1 : AtMostOne (lit "WARC-Target-URI") (Loader.ensureTargetUri h).2.headers := h1
  cases hu : h.getHeader (lit "WARC-Target-URI") with
  | none => rw [Loader.ensureTargetUri_none hu]; exact hu.symm
  | some u => exact (Loader.ensureTargetUri_header hu (cleaned_one (WarcRecord.cleaned_of h) h1)).symm

theorem over_warc {m : Nat} {o o' : LoadOpts} (hk : o.knownFormat = none) (hk' : o'.knownFormat = none) (hc : o'.checkDigests = none) (hv : o'.verifyHttp = false) {p : Portion} (hw : StartsWarc p.all) {rec : Record Unit} (hs : p.Shows o rec)
    (ht : ¬ HttpType rec.recType ∨ (p.block ≠ [] ∧ AtMostOne (lit "WARC-Target-URI") rec.recHeaders.headers ∧ HttpRecord rec.recType (firstValue (lit "WARC-Target-URI") rec.recHeaders.headers))) {e : PyErr} : ¬ Over o' m p.all e := by
  have hs0 := hs
  obtain ⟨⟨f, hd, d1, d2, d3, -⟩, -, -, n1, -⟩ := hs
  have q := detect_agree hk hk' hw d1
  intro h
  cases h with
  | empty h => exact n1 (List.append_eq_nil_iff.1 (List.append_eq_nil_iff.1 h).1).1
  | head e left _ h => rw [q] at h; cases h
  | bare f h _ h1 _ h2 =>
    rw [q] at h1
    simp only [Prod.mk.injEq, Except.ok.injEq] at h1
    obtain ⟨⟨rfl, rfl⟩, h1⟩ := h1
    rcases ht with ht | ⟨ht, -⟩
    · rw [d3] at ht; exact ht h2.1
    · exact ht (List.append_eq_nil_iff.1 h1).1
  | digest e f h left _ _ _ _ h => rw [hc] at h; cases h
  | status l f h left _ _ _ h _ => rw [hv] at h; cases h
  | uri f h left _ h1 _ h2 h3 =>
    rw [q] at h1
    simp only [Prod.mk.injEq, Except.ok.injEq] at h1
    obtain ⟨⟨rfl, rfl⟩, -⟩ := h1
    rcases ht with ht | ⟨-, ht1, -, u, ht, -⟩
    · rw [d3] at ht; exact ht h2
    · rw [← (shows_http hk hk hw hs0 ht1 d1).2, h3] at ht; cases ht

theorem indexed_find {io : IterOpts} {base : Str} {fields : List Str} {n : Nat} {off : Int} {data : Bytes} {x : Except PyErr Unit} {es : List (List (Str × Str))} (h : Indexed io m base fields n off data x es) :
    ∀ entry ∈ es, ∃ (n' : Nat) (k : Nat) (p : Portion) (rec : Record Unit) (left : Bytes), data.drop k = p.all ∧ p.Shows (io.load none (io.ids n')) rec ∧ p.Parsed (io.load none (io.ids n')) m rec left ∧ entry = rec.entry (off + k) (len p.bytes) base fields := by
  induction h with
  | over n off data e h => intro entry he; simp at he
  | record n off p rec left x es h1 h1' h2 ih =>
    intro entry he
    rcases List.mem_cons.1 he with rfl | he
    · exact ⟨n, 0, p, rec, left, by simp, h1, h1', by simp⟩
    · obtain ⟨n', k, p', rec', left', k1, k2, k2', k3⟩ := ih entry he
      have hsk := skipped_append p.tail
      have e1 : p.all = (p.bytes ++ skipped p.tail) ++ resumed p.tail := by
        rw [List.append_assoc, hsk]; simp [Portion.all, Portion.bytes]
      refine ⟨n', (p.bytes ++ skipped p.tail).length + k, p', rec', left', ?_, k2, k2', ?_⟩
      · rw [e1, List.drop_append, List.drop_eq_nil_of_le (by omega), List.nil_append, Nat.add_sub_cancel_left]
        exact k1
      · rw [k3]
        congr 1
        simp only [len, List.length_append]
        omega

/-- C90: the offset in any line of the index of any uncompressed file is that of a record in the file,
whose fields the line shows; if it is a WARC record that is none of HTTP, `warcio extract` at this
offset prints its headers and its block, and for a WARC record of HTTP it prints the headers, the HTTP
headers at the front of the block, and what is behind them. -/
theorem C90_lookup (L : LawfulGzip IsMember) {f : FileObj} (hs : f.seekable = true) (h0 : f.pos = 0) (h : Uncompressed f 16384) {m : Nat} (hl : Lined f 16384 m) {fields : List Str} (hf : lit "offset" ∈ fields) (v : Bool) (ids : Nat → Str)
    {file base : Str} (hb : IsBasename file base) {x : Except PyErr Unit} {es : List (List (Str × Str))} (hi : Indexer.indexFile fields v ids file f = (x, es)) :
    ∀ entry ∈ es, ∃ (off : Nat) (p : Portion) (rec : Record Unit), f.content.drop off = p.all ∧ entry = rec.entry off (len p.bytes) base fields ∧ entry.lookup (lit "offset") = some (intToStr off) ∧
      (StartsWarc p.all → 2 ≤ p.all.length → ¬ HttpType rec.recType → ∀ payloadOnly headersOnly, Extractor.extractAt f (intToStr off) payloadOnly headersOnly =
        (.ok (), (if payloadOnly then [] else rec.recHeaders.toBytes) ++ (if headersOnly && !payloadOnly then [] else p.block))) ∧
      (StartsWarc p.all → AtMostOne (lit "WARC-Target-URI") rec.recHeaders.headers → HttpRecord rec.recType (firstValue (lit "WARC-Target-URI") rec.recHeaders.headers) → rec.length ≠ some 0 → HeadWithin m p.block → lineText (takeLine p.block) ≠ [] →
        ∃ hd left, HttpHead p.block hd left ∧ hd.headersBuff = none ∧ (hd.statusline ≠ [] ∨ hd.headers ≠ [] → ∀ headersOnly, Extractor.extractAt f (intToStr off) false headersOnly =
          (.ok (), rec.recHeaders.toBytes ++ hd.toBytes ++ (if headersOnly then [] else left)))) := by
  obtain ⟨x', es', k1, k2⟩ := C89_index L h hl fields v ids hb
  rw [hi] at k1
  cases k1
  intro entry he
  obtain ⟨n', k, p, rec, left0, m1, m2, m2', m3⟩ := indexed_find k2 entry he
  have hrest : f.rest = f.content := by unfold FileObj.rest; rw [h0]; rfl
  have horig : f.origin = 0 := by unfold FileObj.origin; rw [hs, h0]; rfl
  rw [hrest] at m1
  rw [horig, Int.zero_add] at m3
  have hu : StartsWarc p.all → 2 ≤ p.all.length → Uncompressed { f with pos := k } 16384 := by
    intro hw h2
    refine ⟨by decide, h.first, fun _ => ?_, ?_⟩
    · show 2 ≤ (f.content.drop k).length
      rw [m1]
      exact h2
    · show ¬ _ <+: f.content.drop k
      rw [m1]
      exact startsWarc_magic hw
  refine ⟨k, p, rec, m1, m3, ?_, ?_, ?_⟩
  · rw [m3]
    exact lookup_filterMap (g := fun n => rec.field k (len p.bytes) base n) (n := lit "offset") (by rw [Record.field, if_pos rfl]) _ (List.mem_eraseDups.2 hf)
  · intro hw h2 hnt po ho
    unfold Extractor.extractAt
    rw [parseInt_intToStr]
    dsimp only
    rcases C90_extract L hs (hu hw h2) hl po ho with ⟨e, r1, r2⟩ | ⟨p', rec', left, r1, r2, r2', r3, r4, r5⟩
    · exfalso
      rw [m1] at r1
      exact over_warc rfl rfl rfl rfl hw m2 (.inl hnt) r1
    · have hall : p'.all = p.all := r1.symm.trans m1
      obtain ⟨rfl, t1, t2⟩ := shows_warc rfl rfl hall hw m2 r2
      rw [t1] at r4 r5
      have hno : rec'.httpHeaders = none := (r2.bare (.inr (by rw [t1]; exact hnt))).2
      rw [r5 (.inr hnt), r4 hnt]
      unfold printed
      rw [t2, show rec'.httpShown = none by simp [Record.httpShown, hno]]
      cases po <;> simp
  · intro hw ha hr hz hwi hln
    have h2 : 2 ≤ p.all.length := by
      have e1 : p.block ≠ [] := by rintro e; rw [e] at hln; exact hln rfl
      have e2 := List.length_pos_iff.2 e1
      have e3 := List.length_pos_iff.2 m2.some
      unfold Portion.all
      simp only [List.length_append]
      omega
    obtain ⟨hd, left, q1, q0, q2⟩ := http_bytes hr hz hln
    refine ⟨hd, left, q1, q0, fun hne ho => ?_⟩
    unfold Extractor.extractAt
    rw [parseInt_intToStr]
    dsimp only
    rcases C90_extract L hs (hu hw h2) hl false ho with ⟨e, r1, r2⟩ | ⟨p', rec', left', r1, r2, r2', r3, r4, r5⟩
    · exfalso
      rw [m1] at r1
      exact over_warc rfl rfl rfl rfl hw m2 (.inr ⟨by rintro e; rw [e] at hln; exact hln rfl, ha, hr⟩) r1
    · have hall : p'.all = p.all := r1.symm.trans m1
      obtain ⟨rfl, t1, t2⟩ := shows_warc rfl rfl hall hw m2 r2
      have hlen := shows_length rfl rfl hw m2 r2
      obtain ⟨⟨f0, h0, d1, -⟩, -⟩ := id r2
      obtain ⟨http, x1, x2, -⟩ := r2' (.inl rfl) hwi f0 h0 d1
      obtain ⟨y1, y2⟩ := shows_http rfl rfl hw m2 ha d1
      rw [y1, y2, hlen] at x1
      have x1 := x1.symm.trans q2
      simp only [Prod.mk.injEq, Except.ok.injEq] at x1
      obtain ⟨rfl, rfl⟩ := x1
      have ht : hd.truthy = true := by
        simp only [StatusAndHeaders.truthy]
        rcases hne with h | h <;> simp [h]
      have hh : rec'.httpHeaders = some hd := by
        rw [x2, show Loader.truthyHeaders (some hd) = true from ht]
        rfl
      rw [r5 (.inl rfl)]
      unfold printed
      have hsh : rec'.httpShown = some hd := by
        rw [httpShown_some hh]
        rw [ht]; rfl
      rw [t2, hsh]
      cases ho <;> simp

end

open Toy in
/-- The offset in the second line of the index above, and that in the third line, of an HTTP record. -/
example : Extractor.extractAt exParts (lit "116") false true = (.ok (), exInfo.head) ∧
    Extractor.extractAt exParts (lit "191") false false = (.ok (), exHttp.head ++ exHttp.block) := by decide +kernel

open Toy in
/-- The hypotheses on the record there. -/
example : StartsWarc (exParts.content.drop 191) ∧ AtMostOne (lit "WARC-Target-URI") exHttp.headers ∧
    HttpRecord (firstValue (lit "WARC-Type") exHttp.headers) (firstValue (lit "WARC-Target-URI") exHttp.headers) ∧ Lined exParts 16384 16384 ∧
    HeadWithin 16384 exHttp.block ∧ lineText (takeLine exHttp.block) ≠ [] :=
  ⟨⟨lit "WARC/1.0", by decide, by decide +kernel⟩, by unfold AtMostOne; decide, ⟨by decide, lit "http://x/", by decide, .inl (by decide)⟩, .inr ⟨rfl, by decide⟩,
   .line (by decide +kernel) (by decide +kernel) (.line (by decide +kernel) (by decide +kernel) (.blank (by decide +kernel) (by decide +kernel) (by decide +kernel))), by decide +kernel⟩

end Warcio.Props
