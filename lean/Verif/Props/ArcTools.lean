import Verif.Props.Check
import Verif.Props.Extract
import Verif.Props.ArcConvert

/-!
# Property C78: the tools on ARC files

`warcio index` converts the records to WARC records, `warcio check` has nothing to check, and `warcio extract` prints
the fields as headers.
-/

set_option linter.unusedSectionVars false

namespace Warcio.Props

open Warcio ArchiveIter

section
variable [PyUni] [Hashlib] [Zlib] {IsMember : Bytes → Bytes → Prop} {IsCoded : DType → Bytes → Bytes → Prop} {m : Nat}

/-! ## `warcio index` -/

theorem uri_once (a : ArcRecord) (id iso : Str) : AtMostOne (lit "WARC-Target-URI") (a.asWarc id iso).headers := by
  show ((a.converted id iso).filter (StatusAndHeaders.nameEq (lit "WARC-Target-URI"))).length ≤ 1
  have hasc : ∀ h ∈ a.converted id iso, isAscii h.1 = true := by rw [← ArcRecord.converted_eq]; exact converted_ascii _ _ _ _ _ _
  rw [List.filter_congr (q := fun h => h.1.map Char.toLower == (lit "WARC-Target-URI").map Char.toLower)]
  · exact ArcRecord.names_count a id iso (fun n => n.map Char.toLower == (lit "WARC-Target-URI").map Char.toLower) (by decide) (by decide)
  · intro x hx
    unfold StatusAndHeaders.nameEq
    rw [PyUni.lower_ascii (lit "WARC-Target-URI") (by decide), PyUni.lower_ascii _ (hasc x hx)]

/-- What is needed for these fields: HTTP headers with lines of at most `m` bytes, if they are asked for. -/
def ArcIndexable (fields : List Str) (m : Nat) (y : ArcAt) : Prop :=
  (∃ n ∈ fields, lit "http:" <+: n) → HttpPartOf (y.record.Http { arc2warc := true }) y.record.block m y.http

theorem indexes_arc {fields : List Str} {ids : Nat → Str} : ∀ (ys : List ArcAt), (∀ y ∈ ys, ArcIndexable fields m y) →
    Each (Indexes fields ids m (ArcAt.Indexed ids)) ys (ys.map (fun y => y.record.expected (Indexer.opts fields false ids) m y.offset y.size))
  | [], _ => .nil
  | y :: ys, h => .cons (fun rec left hs => by
      obtain ⟨k, d, k1, k2⟩ := ArcRecord.shows_asWarc (io := Indexer.opts fields false ids) rfl hs
      refine ⟨⟨y.record.asWarc (ids k) (datetimeToIsoDate d), y.offset, y.size, y.http⟩, ⟨k, d, k1, rfl⟩, k2, rfl, rfl, fun hf => ?_, fun _ => uri_once _ _ _⟩
      have := h y (.head _) hf
      show HttpPartOf _ _ m _
      rw [propext (ArcRecord.http_asWarc y.record (io := { arc2warc := true }) rfl (ids k) (datetimeToIsoDate d))]
      exact this) (indexes_arc ys (fun z hz => h z (.tail _ hz)))

/-- C78: indexing an ARC file gives one line for each record, in order, with the position and the size of the ARC record, and with
the fields of the WARC record that it is converted to. -/
theorem C78_index_partial (L : LawfulGzip IsMember) {f : FileObj} {ys : List ArcAt} (ha : ArcArchived IsMember m f ys) {fields : List Str} (hy : ∀ y ∈ ys, ArcIndexable fields m y)
    {file base : Str} (hb : IsBasename file base) (ids : Nat → Str) :
    ∃ (xs : List Located) (lines : List Str), Each (ArcAt.Indexed ids) ys xs ∧ Each (fun x line => '\n' ∉ line ∧ Json.object line = some (x.entry base fields, [])) xs lines ∧
      Indexer.index fields false ids [(file, f)] = (.ok (), lines.flatMap (fun l => l ++ ['\n'])) := by
  obtain ⟨it, k1, k2, k3⟩ := arc_archived_ready L ha (io := Indexer.opts fields false ids) rfl (by simp [Indexer.opts])
  obtain ⟨xs, q1, q2⟩ := indexLoop_shown hb (fun h => by cases h) ys _ (PyStream.bound it.reader + 2) k2 (indexes_arc ys hy) (by have := open_bound k1; omega)
  have text : ∀ xs : List Located, ∃ ls : List Str, Each (fun x line => '\n' ∉ line ∧ Json.object line = some (x.entry base fields, [])) xs ls ∧
      (xs.map (fun x => x.entry base fields)).flatMap Indexer.jsonLine = ls.flatMap (fun l => l ++ ['\n']) := by
    intro xs
    induction xs with
    | nil => exact ⟨[], .nil, rfl⟩
    | cons x xs ih =>
      obtain ⟨ls, r1, r2⟩ := ih
      obtain ⟨l, s1, s2⟩ := Json.object_line (x.entry base fields)
      exact ⟨l :: ls, .cons ⟨Json.line_one _ s1, s2⟩ r1, by rw [List.map_cons, List.flatMap_cons, List.flatMap_cons, r2, s1]⟩
  obtain ⟨ls, r1, r2⟩ := text xs
  refine ⟨xs, ls, q1, r1, ?_⟩
  have : Indexer.indexFile fields false ids file f = (.ok (), xs.map (fun x => x.entry base fields)) := by
    unfold Indexer.indexFile
    rw [k1]
    exact q2
  rw [Indexer.index, this]
  dsimp only
  rw [Indexer.index]
  dsimp only
  rw [r2, List.append_nil]

/-! ## `warcio check` -/

theorem arc_value (a : ArcRecord) {n : Str} (hn : n ∈ [lit "WARC-Record-ID", lit "WARC-Type", lit "WARC-Payload-Digest", lit "WARC-Block-Digest"]) : a.asShown.value n = none := by
  show firstValue n a.shown = none
  rw [Loader.firstValue_eq, findAscii_eq]
  · simp only [List.mem_cons, List.not_mem_nil, or_false] at hn
    rcases hn with rfl | rfl | rfl | rfl <;> rfl
  · simp only [List.mem_cons, List.not_mem_nil, or_false] at hn
    rcases hn with rfl | rfl | rfl | rfl <;> decide
  · intro h hh
    simp only [ArcRecord.shown, List.mem_cons, List.not_mem_nil, or_false] at hh
    rcases hh with rfl | rfl | rfl | rfl | rfl
    · exact (by decide : isAscii (lit "uri") = true)
    · exact (by decide : isAscii (lit "ip-address") = true)
    · exact (by decide : isAscii (lit "archive-date") = true)
    · exact (by decide : isAscii (lit "content-type") = true)
    · exact (by decide : isAscii (lit "length") = true)

/-- What is said of the records, if it is asked for. -/
def arcNotes (verbose : Bool) (ys : List ArcAt) : List Checker.Print :=
  if verbose then ys.map (fun y => .record y.offset none none (some (lit "no digest to check")) []) else []

theorem arc_lines {verbose : Bool} : ∀ {ys : List ArcAt} {lines : List Checker.Print}, CheckLines verbose (ys.map arcUnchecked) lines → lines = arcNotes verbose ys
  | [], _, h => by cases h; cases verbose <;> rfl
  | y :: ys, _, h => by
    rw [List.map_cons] at h
    cases h with
    | quiet x v xs out h1 h2 h3 =>
      subst h2
      rw [arc_lines h3]; rfl
    | note x v xs out h1 h2 h3 =>
      subst h2
      rw [arc_lines h3]
      have e1 := arc_value y.record (n := lit "WARC-Record-ID") (by simp)
      have e2 := arc_value y.record (n := lit "WARC-Type") (by simp)
      have e3 := arc_value y.record (n := lit "WARC-Payload-Digest") (by simp)
      have e4 := arc_value y.record (n := lit "WARC-Block-Digest") (by simp)
      show Checker.Print.record y.offset (y.record.asShown.value (lit "WARC-Record-ID")) (y.record.asShown.value (lit "WARC-Type")) (some (y.record.asShown.note none)) [] :: _ = _
      have e5 : y.record.asShown.note none = lit "no digest to check" := by
        unfold WarcRecord.note
        rw [if_neg (by simp), e3, e4, if_pos ⟨rfl, rfl⟩]
      rw [e1, e2, e5]; rfl

/-- C78: checking an ARC file never fails: the exit value is 0; with `verbose` there is a line for each record that there is no
digest to check, without an identifier and a type. -/
theorem C78_check_partial (L : LawfulGzip IsMember) (LC : LawfulCodecs IsCoded) (verbose : Bool) (name : Str) {f : FileObj} {ys : List ArcAt} (ha : ArcArchived IsMember m f ys) (hy : ∀ y ∈ ys, ArcCheckable IsCoded m y.record) :
    Checker.processAll verbose [(name, f)] 0 = (.ok 0, if verbose ∧ ys ≠ [] then .file name :: arcNotes true ys else []) := by
  obtain ⟨out, k1, k⟩ := C57_check_partial L LC verbose [(name, f, ys.map arcUnchecked, false)] (fun i hi => by rw [List.mem_singleton.1 hi]; exact .arc f ys ha hy)
  rw [List.map_singleton] at k
  rw [k, if_neg (by
    rintro ⟨i, hi, h⟩
    rw [List.mem_singleton.1 hi] at h
    rcases h with h | ⟨x, hx, h⟩
    · cases h
    · obtain ⟨y, hy, rfl⟩ := List.mem_map.1 hx
      cases h)]
  congr 1
  cases k1 with
  | cons name xs failed lines rest out h1 h2 =>
    cases h2
    rw [arc_lines h1]
    cases verbose with
    | false => rfl
    | true => cases ys <;> simp [arcNotes, checkReport]

/-! ## `warcio extract` -/

theorem output_arc {σ : Type} [PyStream σ] (LC : LawfulCodecs IsCoded) {multi : Bool} {last : Option PyErr} {it : ArchiveIter σ} {e : Expected} {es : List Expected} {a : ArcRecord} {rec : Record Unit} {left : Bytes} (hn : Now multi last it e left es)
    (hs : a.Shows {} m rec left) (hm : e.line = m) {po ho : Bool} {out : Bytes} (hp : ArcPrinted IsCoded a m po ho out) : Extractor.output (withRaw rec it.raw) po ho = (.ok (), out) := by
  have hb0 : ¬ a.Http {} ∨ a.block = [] → left = a.block ∧ rec.httpHeaders = none := fun h0 => ⟨(hs.block (.inr h0)).1, (hs.block (.inr h0)).2.2 rfl⟩
  have hh0 : a.Http {} → HeadWithin m a.block → lineText (takeLine a.block) ≠ [] → ∃ h, HttpHead a.block h left ∧ (h.statusline ≠ [] ∨ h.headers ≠ [] → rec.httpHeaders = some h) := fun g1 g2 g3 => by
    obtain ⟨y, k1, k2⟩ := hs.http rfl g1 g2 g3
    exact ⟨y, k1, fun h => (k2 h).1⟩
  have hhead : rec.recHeaders.toBytes = utf8Encode (headText (lit "WARC/1.0") [] a.shown) := by
    rw [toBytes_headText (by rw [hs.version.1]; decide), hs.version.1, hs.version.2, hs.headers rfl]; rfl
  have hout : ∀ hb payload, a.Splits {} m hb payload → left = payload ∧ a.block = hb ++ payload ∧ Extractor.output (withRaw rec it.raw) false ho = if ho then (.ok (), rec.recHeaders.toBytes ++ hb) else
      ((readAllBlocks Extractor.readSize it.raw).2.1, (rec.recHeaders.toBytes ++ hb) ++ (readAllBlocks Extractor.readSize it.raw).1.flatten) := by
    intro hb payload hw
    obtain ⟨k2, k3, k4⟩ := split_like hw hb0 hh0
    refine ⟨k2, k3, ?_⟩
    have hh : (withRaw rec it.raw).httpHeaders = rec.httpHeaders := rfl
    have hr : (withRaw rec it.raw).recHeaders = rec.recHeaders := rfl
    have hw : (withRaw rec it.raw).rawStream = it.raw := rfl
    unfold Extractor.output
    rw [if_neg (by decide), hh, hr, hw]
    rcases k4 with ⟨q1, q2⟩ | ⟨h, q1, q2, q3, -⟩
    · rw [q1, q2]
    · rw [q1]; dsimp only; rw [if_pos q2, q3]
  cases hp with
  | all hb payload hw =>
    obtain ⟨rfl, k3, k4⟩ := hout hb payload hw
    obtain ⟨bufs, raw, r1, r2, -⟩ := hn.readAll (n := Extractor.readSize) (by decide)
    rw [k4, if_neg (by decide), r1]
    dsimp only
    rw [hhead, r2, k3, List.append_assoc]
  | headers hb payload hw =>
    obtain ⟨rfl, k3, k4⟩ := hout hb payload hw
    rw [k4, if_pos rfl, hhead]
  | payload ho data hl hc =>
    obtain ⟨cs, W, c1, c2, c3, c4⟩ := content_like LC hn hb0 hh0 (fun h => by rw [hm]; exact hl h) hc
    have G := ContentStream.gets (rawView_gets (multi := multi) (last := last) (it := it) (e := e) (es := es)) c2
    obtain ⟨bufs, s', b1, b2, -⟩ := G.readBlocks (n := Extractor.readSize) (by decide) (PyStream.bound cs + 2) c4 (by have := G.bound c4; omega)
    have : readAllBlocks Extractor.readSize cs = (bufs, .ok (), s') := b1
    unfold Extractor.output
    rw [if_pos rfl, c1]
    dsimp only
    rw [this]
    dsimp only
    rw [b2]

theorem extract_arc (LC : LawfulCodecs IsCoded) {f : FileObj} (hs : f.seekable = true) {off : Nat} {multi : Bool} {last : Option PyErr} {it : ArchiveIter Source} {a : ArcRecord} {e : Expected} {es : List Expected}
    (ho : openArchive { f with pos := off } = .ok it) (hr : Ready multi last it (e :: es)) (he : ∀ rec left, e.shows rec left → a.Shows {} m rec left) (hm : e.line = m) {po hon : Bool}
    {out : Bytes} (hp : ArcPrinted IsCoded a m po hon out) : Extractor.extract f off po hon = (.ok (), out) := by
  obtain ⟨it', rec, left, k1, k2, k3, k4⟩ := hr.record
  replace k3 := he _ _ k3
  have hcur : it'.current = some (withRaw rec it'.raw) := by rw [current_eq, k2]; rfl
  unfold Extractor.extract
  rw [if_neg (by omega)]
  have : f.seek ((off : Int)).toNat = .ok { f with pos := off } := by
    unfold FileObj.seek
    rw [if_pos hs]
    rfl
  rw [this]
  dsimp only
  rw [ho]
  dsimp only
  rw [k1]
  dsimp only
  rw [hcur]
  exact output_arc LC k4 k3 hm hp

/-- C78: extracting a record of an uncompressed ARC file, whatever stands before it.  What is printed is no ARC record: the fields are printed as headers
behind a line `WARC/1.0`.  The content is that of the record. -/
theorem C78_extract_partial (L : LawfulGzip IsMember) (LC : LawfulCodecs IsCoded) {f : FileObj} (hs : f.seekable = true) {before : Bytes} {a : ArcRecord} {as : List ArcRecord}
    (hg : ∀ x ∈ a :: as, x.Good) (hf : f.content = before ++ (a :: as).flatMap ArcRecord.bytes) (hr : Reads f 16384 m)
    {payloadOnly headersOnly : Bool} {out : Bytes} (hp : ArcPrinted IsCoded a m payloadOnly headersOnly out) :
    Extractor.extract f before.length payloadOnly headersOnly = (.ok (), out) := by
  obtain ⟨it, k1, k2⟩ := arc_ready L (io := {}) ⟨hg, rfl, by simp⟩ (f := { f with pos := before.length }) (by simp [FileObj.rest, hf]) (bs := 16384) (m := m) ⟨hr.block, hr.first, hr.lines⟩ (kf := none) (by simp)
  exact extract_arc LC hs k1 k2 (fun _ _ h => h) rfl hp

/-- C78: the same for a record that is a gzip member, with other such members behind it. -/
theorem C78_extract_gzip_partial (L : LawfulGzip IsMember) (LC : LawfulCodecs IsCoded) {f : FileObj} (hs : f.seekable = true) {before : Bytes} {z : Bytes} {a : ArcRecord} {ms : List (Bytes × ArcRecord)}
    (hg : ∀ x ∈ (z, a) :: ms, x.2.Good ∧ IsMember x.1 x.2.bytes) (hf : f.content = before ++ ((z, a) :: ms).flatMap (·.1)) (hr : ReadsGz f 16384 m (((z, a) :: ms).map (·.1)))
    {payloadOnly headersOnly : Bool} {out : Bytes} (hp : ArcPrinted IsCoded a m payloadOnly headersOnly out) :
    Extractor.extract f before.length payloadOnly headersOnly = (.ok (), out) := by
  obtain ⟨it, k1, k2⟩ := arc_gz_ready L (io := {}) (ms := (z, a) :: ms) ⟨fun x hx => by
    obtain ⟨y, hy, rfl⟩ := List.mem_map.1 hx
    exact (hg y hy).1, rfl, by simp⟩ (fun x hx => (hg x hx).2) (f := { f with pos := before.length }) (by simp [FileObj.rest, hf]) (by simp) (bs := 16384) (m := m) ⟨hr.block, hr.lines⟩ (kf := none) (by simp)
  exact extract_arc LC hs k1 k2 (fun _ _ h => h) rfl hp

end

section
open Toy

theorem exArc_archived : ArcArchived IsMember 64 exArcFile (arcPlacements 0 [(exArcInfo, none), (exArcPage, some exHttpHead)]) := by
  refine .plain exArcFile _ ?_ rfl ⟨by decide, by simp [exArcFile], .inr ⟨rfl, by decide⟩⟩
  intro x hx
  simp only [List.mem_cons, List.not_mem_nil, or_false] at hx
  rcases hx with rfl | rfl
  · exact exArcInfo_good
  · exact exArcPage_good

theorem exArcPage_head : HeadWithin 64 exArcPage.block ∧ lineText (takeLine exArcPage.block) ≠ [] ∧ HttpHead exArcPage.block exHttpHead (utf8Encode (lit "xy")) :=
  ⟨.line (by decide +kernel) (by decide +kernel) (.line (by decide +kernel) (by decide +kernel) (.blank (by decide +kernel) (by decide +kernel) (by decide +kernel))), by decide +kernel,
    ⟨by decide +kernel, by decide +kernel, by decide +kernel, by decide +kernel, by decide +kernel⟩⟩

theorem exArcPage_http : exArcPage.Http {} := ⟨by decide, lit "http://x/a b", rfl, .inl (by decide)⟩

/-- The hypotheses of `C78_index_partial`. -/
example : IsBasename (lit "a/b.arc") (lit "b.arc") ∧ ∀ y ∈ arcPlacements 0 [(exArcInfo, none), (exArcPage, some exHttpHead)], ArcIndexable exFields 64 y := by
  refine ⟨⟨by decide, .inr ⟨lit "a", rfl⟩⟩, ?_⟩
  intro y hy
  simp only [arcPlacements, List.mem_cons, List.not_mem_nil, or_false] at hy
  rcases hy with rfl | rfl
  · exact fun _ => .none (.inl (fun h => h.1 (by decide)))
  · exact fun _ => .head exHttpHead (utf8Encode (lit "xy")) ⟨by decide, lit "http://x/a%20b", .plain _ (noBrackets (by decide)), .inl (by decide)⟩ exArcPage_head.1 exArcPage_head.2.1 exArcPage_head.2.2 (.inl (by decide))

theorem exArcPage_content : exArcPage.Content toyCoded 64 (utf8Encode (lit "xy")) :=
  .http exHttpHead _ _ exArcPage_http exArcPage_head.1 exArcPage_head.2.1 exArcPage_head.2.2 (.inl (by decide)) (.plain none _ _ (by decide +kernel) (by
    have : firstValue (lit "content-encoding") exHttpHead.headers = none := by decide +kernel
    rw [this]; exact .none) (.none _))

/-- The hypotheses of `C78_check_partial`. -/
example : ∀ y ∈ arcPlacements 0 [(exArcInfo, none), (exArcPage, some exHttpHead)], ArcCheckable toyCoded 64 y.record := by
  intro y hy
  simp only [arcPlacements, List.mem_cons, List.not_mem_nil, or_false] at hy
  rcases hy with rfl | rfl
  · exact ⟨⟨_, .whole (.inl (fun h => h.1 (by decide)))⟩, fun h => absurd (by decide) h.1⟩
  · exact ⟨⟨_, exArcPage_content⟩, fun _ => Nat.le_refl _⟩

/-- The same as an input of `C57_check_partial`. -/
example : CheckInput lawful toyCoded 64 exArcFile ((arcPlacements 0 [(exArcInfo, none), (exArcPage, some exHttpHead)]).map arcUnchecked) false := by
  refine .arc _ _ exArc_archived ?_
  intro y hy
  simp only [arcPlacements, List.mem_cons, List.not_mem_nil, or_false] at hy
  rcases hy with rfl | rfl
  · exact ⟨⟨_, .whole (.inl (fun h => h.1 (by decide)))⟩, fun h => absurd (by decide) h.1⟩
  · exact ⟨⟨_, exArcPage_content⟩, fun _ => Nat.le_refl _⟩

theorem exArcPage_splits : exArcPage.Splits {} 64 (utf8Encode (lit "HTTP/1.1 200 OK\r\nA: b\r\n\r\n")) (utf8Encode (lit "xy")) := by
  have good : GoodHeader (lit "A", lit "b") := ⟨⟨by decide, by decide, by decide, by decide, by decide⟩, by decide, by decide⟩
  have reg : RegularHttp exHttpHead := by
    refine ⟨⟨by decide, by decide, by decide, by decide⟩, ⟨by decide, by decide⟩, ?_, .inl (by decide)⟩
    intro x hx
    rw [List.mem_singleton.1 hx]
    exact good
  have e : utf8Encode (headText exHttpHead.protocol exHttpHead.statusline exHttpHead.headers) = utf8Encode (lit "HTTP/1.1 200 OK\r\nA: b\r\n\r\n") := by decide +kernel
  have hs := SplitsOf.http (http := exArcPage.Http {}) (block := exArcPage.block) (m := 64) exHttpHead (utf8Encode (lit "xy")) exArcPage_http reg (by decide +kernel) (by decide +kernel) exArcPage_head.1
  rw [e] at hs
  exact hs

/-- The hypotheses of `C78_extract_partial` and `C78_extract_gzip_partial`. -/
example : ArcPrinted toyCoded exArcPage 64 false false (utf8Encode (headText (lit "WARC/1.0") [] exArcPage.shown) ++ exArcPage.block) ∧
    ArcPrinted toyCoded exArcPage 64 false true (utf8Encode (headText (lit "WARC/1.0") [] exArcPage.shown) ++ utf8Encode (lit "HTTP/1.1 200 OK\r\nA: b\r\n\r\n")) ∧
    ArcPrinted toyCoded exArcPage 64 true false (utf8Encode (lit "xy")) ∧ (∀ x ∈ [exArcPage, exArcInfo], x.Good) ∧
    Reads { content := utf8Encode (lit "??") ++ [exArcPage, exArcInfo].flatMap ArcRecord.bytes } 16384 64 ∧ IsMember (compress exArcPage.bytes) exArcPage.bytes ∧
    ReadsGz { content := utf8Encode (lit "??") ++ compress exArcPage.bytes } 16384 64 [compress exArcPage.bytes] :=
  ⟨.all _ _ exArcPage_splits, .headers _ _ exArcPage_splits, .payload _ _ (fun _ => Nat.le_refl _) exArcPage_content, by
    intro x hx
    simp only [List.mem_cons, List.not_mem_nil, or_false] at hx
    rcases hx with rfl | rfl
    · exact exArcPage_good
    · exact exArcInfo_good, ⟨by decide, by simp, .inr ⟨rfl, by decide⟩⟩, rfl, (.fit (by decide) rfl (by decide +kernel))⟩

/-- What the model does. -/
example : Indexer.index [lit "offset", lit "length", lit "warc-type", lit "warc-target-uri", lit "http:status"] false (fun _ => []) [(lit "a", exArcFile)] = (.ok (), lit
    "{\"offset\": \"0\", \"length\": \"95\", \"warc-type\": \"warcinfo\"}\n{\"offset\": \"96\", \"length\": \"77\", \"warc-type\": \"response\", \"warc-target-uri\": \"http://x/a%20b\", \"http:status\": \"200\"}\n") := by
  decide +kernel

example : Checker.processAll true [(lit "a", exArcFile)] 0 = (.ok 0, [.file (lit "a"), .record 0 none none (some (lit "no digest to check")) [], .record 96 none none (some (lit "no digest to check")) []]) := by
  decide +kernel

/-- What is printed is not what is in the file: it is neither an ARC record nor a WARC record with a type. -/
theorem C78_not_verbatim : Extractor.extract exArcFile 96 false false = (.ok (), utf8Encode (lit
    "WARC/1.0\r\nuri: http://x/a b\r\nip-address: 1.2.3.4\r\narchive-date: 20050614070200\r\ncontent-type: text/html\r\nlength: 27\r\n\r\nHTTP/1.1 200 OK\r\nA: b\r\n\r\nxy")) := by
  decide +kernel

end
end Warcio.Props
