import Verif.Spec.Create
import Verif.Proofs.WriteCalls
import Verif.ToyWriter

/-!
# Properties C40–C42, C45, C46, C49: writing records

Specification: `Verif/Spec/Written.lean`.  Payload streams are files with any contents, at any
position, seekable or not, and with any short reads.
-/

set_option linter.unusedSectionVars false

namespace Warcio.Props

open Warcio Writer

section
variable [PyUni] [Hashlib] [Deflater] {IsMember : Bytes → Bytes → Prop}

/-- A record that can be written: its stream holds `d`, its HTTP headers (if any) can be encoded
as `hb`, its lengths are unknown or true, and it has a version line. -/
structure Writable (flt : Str × Str → Option (Str × Str)) (r : OutRecord FileObj) (hb d : Bytes) : Prop where
  stream : Holds r.raw d
  http : HttpPart flt r hb
  lengths : LengthsFit r hb d
  version : r.recHeaders.protocol ≠ []

omit [PyUni] [Hashlib] [Deflater] in
theorem holds_of {s : RecStream FileObj} {d : Bytes} (h : Holds s d) : holds s d := by
  cases s <;> exact h

theorem headersFor (f : Bytes → Bytes) (r : OutRecord FileObj) (hb d : Bytes) : HeadersFor r (blockOf r hb d) (writtenHeaders f r hb d) where
  length := written_length f r hb d
  one := written_one_length f r hb d
  type _ h := written_type f r hb d h
  others := written_without f r hb d

/-- What `write` does, with the headers of the model. -/
theorem write_plain {f : Bytes → Bytes} (H : Hashlib.hash (lit "sha1") = some f) {c : BuilderCfg} (hg : c.gzip = false) {r : OutRecord FileObj} {hb d : Bytes}
    (hw : Writable c.filter r hb d) {o : OutFile} (ho : o.AtEnd) :
    ∃ r', write c r o = (.ok (), r', o.extended (recordBytes r.recHeaders.protocol r.recHeaders.statusline (writtenHeaders f r hb d) (blockOf r hb d))) ∧
      r'.recHeaders = { r.recHeaders with headers := writtenHeaders f r hb d } ∧ AfterWrite c.filter r hb d r' := by
  obtain ⟨ws, r', h1, h2, h3, h4⟩ := write_eq H c r (holds_of hw.stream) hw.http hw.lengths ho
  refine ⟨r', ?_, h2, h4⟩
  rw [h1, hg]
  simp only [Bool.false_eq_true, if_false]
  rw [h3, h2, toBytes_headText (h := { r.recHeaders with headers := writtenHeaders f r hb d }) hw.version]
  rfl

/-! ## C40 -/

/-- C40: what is written is a header block, the block and CRLFCRLF, and `Content-Length` is the
length of this block.  Partial: the lengths that the record comes with are unknown or true, see
`Writable` and `C40_wrong_length`. -/
theorem C40_length_partial {f : Bytes → Bytes} (H : Hashlib.hash (lit "sha1") = some f) {c : BuilderCfg} (hg : c.gzip = false) {r : OutRecord FileObj} {hb d : Bytes}
    (hw : Writable c.filter r hb d) {o : OutFile} (ho : o.AtEnd) :
    ∃ hs r', write c r o = (.ok (), r', o.extended (recordBytes r.recHeaders.protocol r.recHeaders.statusline hs (blockOf r hb d))) ∧
      HeadersFor r (blockOf r hb d) hs ∧ r'.recHeaders.headers = hs := by
  obtain ⟨r', h1, h2, -⟩ := write_plain H hg hw ho
  exact ⟨_, r', h1, headersFor f r hb d, by rw [h2]⟩

/-! ## C41 -/

omit [Hashlib] [Deflater] in
theorem base_known {r : OutRecord FileObj} (h : r.length ≠ none) : baseHeaders r = r.recHeaders.headers := by
  unfold baseHeaders
  cases hl : r.length with
  | none => exact absurd hl h
  | some n => rfl

omit [Hashlib] [Deflater] in
theorem sha1Of_eq (f : Bytes → Bytes) (d : Bytes) : sha1Of f d = sha1Text f d := rfl

/-- C41: digests that are not there are those of the block and of the payload; digests that are
there are kept.  Partial: the record's length is known (or else see C42) and true, and it is no
revisit (see `C41_revisit`). -/
theorem C41_digests_partial {f : Bytes → Bytes} (H : Hashlib.hash (lit "sha1") = some f) {c : BuilderCfg} (hg : c.gzip = false) {r : OutRecord FileObj} {hb d : Bytes}
    (hw : Writable c.filter r hb d) (hk : r.length ≠ none) (ht : r.recType ≠ some (lit "revisit")) {o : OutFile} (ho : o.AtEnd) :
    ∃ hs r', write c r o = (.ok (), r', o.extended (recordBytes r.recHeaders.protocol r.recHeaders.statusline hs (hb ++ d))) ∧ HeadersFor r (hb ++ d) hs ∧
      (firstValue (lit "WARC-Block-Digest") r.recHeaders.headers = none →
        named (lit "WARC-Block-Digest") hs = [(lit "WARC-Block-Digest", sha1Text f (hb ++ d))]) ∧
      (firstValue (lit "WARC-Payload-Digest") r.recHeaders.headers = none → r.recType ≠ some (lit "warcinfo") →
        named (lit "WARC-Payload-Digest") hs = [(lit "WARC-Payload-Digest", sha1Text f d)]) ∧
      (∀ v, v ≠ [] → firstValue (lit "WARC-Block-Digest") r.recHeaders.headers = some v →
        named (lit "WARC-Block-Digest") hs = named (lit "WARC-Block-Digest") r.recHeaders.headers) ∧
      ((∃ v, v ≠ [] ∧ firstValue (lit "WARC-Payload-Digest") r.recHeaders.headers = some v) ∨ r.recType = some (lit "warcinfo") →
        named (lit "WARC-Payload-Digest") hs = named (lit "WARC-Payload-Digest") r.recHeaders.headers) := by
  obtain ⟨r', h1, h2, -⟩ := write_plain H hg hw ho
  have hbl : blockOf r hb d = hb ++ d := by simp [blockOf, ht]
  have hB := (written_digests f r hb d (.inl rfl)).trans (block_digests f r hb d)
  have hP := (written_digests f r hb d (.inr rfl)).trans (payload_digests f r hb d)
  rw [base_known hk] at hB hP
  have hnp : Builder.noPayloadDigest r.recType = decide (r.recType = some (lit "warcinfo")) := by
    unfold Builder.noPayloadDigest
    have : (r.recType == some (lit "revisit")) = false := by simpa using ht
    rw [this, Bool.or_false]
    rw [Bool.eq_iff_iff]; simp
  refine ⟨writtenHeaders f r hb d, r', by rw [h1, hbl], hbl ▸ headersFor f r hb d, ?_, ?_, ?_, ?_⟩
  · intro h
    rw [Loader.firstValue_eq] at h
    rw [h, filter_nil_iff.2 h] at hB
    exact hB
  · intro h hi
    rw [Loader.firstValue_eq] at h
    rw [h, filter_nil_iff.2 h, hnp] at hP
    simp only [Loader.truthy, hi, decide_false, Bool.or_false, List.nil_append] at hP
    exact hP
  · intro v hv h
    rw [Loader.firstValue_eq] at h
    rw [h] at hB
    have : Loader.truthy (some v) = true := by simp [Loader.truthy, hv]
    rw [this, if_pos rfl, List.append_nil] at hB
    exact hB
  · intro h
    have : (Loader.truthy (StatusAndHeaders.findHeader (lit "WARC-Payload-Digest") r.recHeaders.headers) || Builder.noPayloadDigest r.recType) = true := by
      rcases h with ⟨v, hv, h⟩ | h
      · rw [Loader.firstValue_eq] at h
        rw [h]
        simp [Loader.truthy, hv]
      · rw [hnp]; simp [h]
    rw [this, if_pos rfl, List.append_nil] at hP
    exact hP

/-- C41: the computed digests verify when they are checked. -/
theorem C41_verifies {f : Bytes → Bytes} (H : Hashlib.hash (lit "sha1") = some f) (d : Bytes) : Outcome d (some (sha1Text f d)) (some true) :=
  .good (lit "sha1") _ f (by decide) H (.b32 _)

/-! ## C42 -/

/-- C42: a record of unknown length is written with the length and the digests of what its stream
holds.  Partial: no digest header of it occurs twice (see `C42_duplicate`), and it is no revisit. -/
theorem C42_unknown_partial {f : Bytes → Bytes} (H : Hashlib.hash (lit "sha1") = some f) {c : BuilderCfg} (hg : c.gzip = false) {r : OutRecord FileObj} {hb d : Bytes}
    (hd : Holds r.raw d) (hh : HttpPart c.filter r hb) (hv : r.recHeaders.protocol ≠ []) (hk : r.length = none) (ht : r.recType ≠ some (lit "revisit"))
    (h1 : AtMostOne (lit "WARC-Block-Digest") r.recHeaders.headers) (h2 : AtMostOne (lit "WARC-Payload-Digest") r.recHeaders.headers)
    {o : OutFile} (ho : o.AtEnd) :
    ∃ hs r', write c r o = (.ok (), r', o.extended (recordBytes r.recHeaders.protocol r.recHeaders.statusline hs (hb ++ d))) ∧ HeadersFor r (hb ++ d) hs ∧
      named (lit "WARC-Block-Digest") hs = [(lit "WARC-Block-Digest", sha1Text f (hb ++ d))] ∧
      named (lit "WARC-Payload-Digest") hs = (if r.recType = some (lit "warcinfo") then [] else [(lit "WARC-Payload-Digest", sha1Text f d)]) := by
  have hw : Writable c.filter r hb d := ⟨hd, hh, .unknown hk (fun _ h => absurd h ht), hv⟩
  obtain ⟨r', k1, k2, -⟩ := write_plain H hg hw ho
  have hbl : blockOf r hb d = hb ++ d := by simp [blockOf, ht]
  have hB := (written_digests f r hb d (.inl rfl)).trans (block_digests f r hb d)
  have hP := (written_digests f r hb d (.inr rfl)).trans (payload_digests f r hb d)
  obtain ⟨-, -, -, n4, n5, n6⟩ := names_differ
  have b1 : (baseHeaders r).filter (StatusAndHeaders.nameEq (lit "WARC-Block-Digest")) = [] := by
    unfold baseHeaders
    rw [hk]
    simp only [ht, if_false]
    rw [filter_remove_passes (passes_other n4), filter_remove_passes (passes_other n6.symm)]
    exact filter_remove_self h1
  have b2 : (baseHeaders r).filter (StatusAndHeaders.nameEq (lit "WARC-Payload-Digest")) = [] := by
    unfold baseHeaders
    rw [hk]
    simp only [ht, if_false]
    rw [filter_remove_passes (passes_other n5)]
    apply filter_remove_self
    show (List.filter (StatusAndHeaders.nameEq (lit "WARC-Payload-Digest")) _).length ≤ 1
    rw [filter_remove_passes (passes_other n6)]
    exact h2
  rw [b1, filter_nil_iff.1 b1] at hB
  rw [b2, filter_nil_iff.1 b2] at hP
  refine ⟨writtenHeaders f r hb d, r', by rw [k1, hbl], hbl ▸ headersFor f r hb d, hB, ?_⟩
  refine Eq.trans hP ?_
  have : (r.recType == some (lit "revisit")) = false := by simpa using ht
  by_cases hi : r.recType = some (lit "warcinfo")
  · simp [Builder.noPayloadDigest, hi, Loader.truthy]
  · have hi' : (r.recType == some (lit "warcinfo")) = false := by simpa using hi
    simp only [Builder.noPayloadDigest, hi', this, Loader.truthy, hi, Bool.or_false, if_false, List.nil_append]
    rfl

/-! ## C45 -/

/-- C45: with compression the same happens as without, except that the bytes written are one gzip
member that holds the bytes written without.  For every record, also when writing fails; then
nothing is said about the bytes. -/
theorem C45_member (L : LawfulDeflater IsMember) (c : BuilderCfg) {σ : Type} [PyFile σ] (r : OutRecord σ) {o : OutFile} (ho : o.AtEnd) :
    (write { c with gzip := true } r o).1 = (write { c with gzip := false } r o).1 ∧
    (write { c with gzip := true } r o).2.1 = (write { c with gzip := false } r o).2.1 ∧
    ((write { c with gzip := true } r o).1 = .ok () → ∃ z p, IsMember z p ∧
      (write { c with gzip := true } r o).2.2 = o.extended z ∧ (write { c with gzip := false } r o).2.2 = o.extended p) := by
  obtain ⟨ws, x, r', h⟩ := writeTo_calls c r
  have e1 : write { c with gzip := true } r o = (x, r', (if x = .ok () then (ws.foldl Sink.write { out := o, gz := some [] }).flush else ws.foldl Sink.write { out := o, gz := some [] }).out) := by
    unfold write
    have : ∀ b out, writeTo { c with gzip := b } r out = writeTo c r out := fun _ _ => rfl
    simp only [this, if_true, h]
  have e2 : write { c with gzip := false } r o = (x, r', (if x = .ok () then (ws.foldl Sink.write { out := o }).flush else ws.foldl Sink.write { out := o }).out) := by
    unfold write
    have : ∀ b out, writeTo { c with gzip := b } r out = writeTo c r out := fun _ _ => rfl
    simp only [this, Bool.false_eq_true, if_false, h]
  rw [e1, e2]
  refine ⟨rfl, rfl, ?_⟩
  intro hx
  simp only at hx
  refine ⟨_, _, L ws, ?_, ?_⟩
  · simp only [hx, if_true]
    rw [foldl_write_gz ws [] o ho]
    simp only [Sink.flush, List.nil_append]
    rw [OutFile.write_end rfl]
    simp [OutFile.extended]
  · simp only [hx, if_true]
    rw [foldl_write_plain ws o ho]
    rfl

omit [PyUni] [Hashlib] [Deflater] in
theorem extended_atEnd (o : OutFile) (b : Bytes) : (o.extended b).AtEnd := rfl

/-- C45 for any number of records written one after the other: the compressed file is a sequence of
members, one for each record, which hold the bytes of the uncompressed file. -/
theorem C45_file (L : LawfulDeflater IsMember) (c : BuilderCfg) {σ : Type} [PyFile σ] (rs : List (OutRecord σ)) {o1 o2 : OutFile} (h1 : o1.AtEnd) (h2 : o2.AtEnd)
    {o1' : OutFile} (hw : writeAll { c with gzip := true } rs o1 = (.ok (), o1')) :
    ∃ ms : List (Bytes × Bytes), ms.length = rs.length ∧ (∀ m ∈ ms, IsMember m.1 m.2) ∧ o1' = o1.extended (ms.flatMap (·.1)) ∧
      writeAll { c with gzip := false } rs o2 = (.ok (), o2.extended (ms.flatMap (·.2))) := by
  induction rs generalizing o1 o2 with
  | nil =>
    have e : ∀ {o : OutFile}, o.AtEnd → o = o.extended [] := by
      intro o h
      obtain ⟨b, p⟩ := o
      have h : p = b.length := h
      simp [OutFile.extended, h]
    cases hw
    exact ⟨[], rfl, by simp, e h1, by rw [writeAll]; exact congrArg _ (e h2)⟩
  | cons r rs ih =>
    obtain ⟨ws, x, r', h⟩ := writeTo_calls c r
    have e1 : ∀ o : OutFile, write { c with gzip := true } r o = (x, r', (if x = .ok () then (ws.foldl Sink.write { out := o, gz := some [] }).flush else ws.foldl Sink.write { out := o, gz := some [] }).out) := by
      intro o
      unfold write
      have : ∀ b out, writeTo { c with gzip := b } r out = writeTo c r out := fun _ _ => rfl
      simp only [this, if_true, h]
    have e2 : ∀ o : OutFile, write { c with gzip := false } r o = (x, r', (if x = .ok () then (ws.foldl Sink.write { out := o }).flush else ws.foldl Sink.write { out := o }).out) := by
      intro o
      unfold write
      have : ∀ b out, writeTo { c with gzip := b } r out = writeTo c r out := fun _ _ => rfl
      simp only [this, Bool.false_eq_true, if_false, h]
    unfold writeAll at hw ⊢
    rw [e1] at hw
    rw [e2]
    cases x with
    | error e => simp at hw
    | ok u =>
      simp only [if_true] at hw ⊢
      have f1 : (List.foldl Sink.write { out := o1, gz := some [] } ws).flush.out = o1.extended (Deflater.outFrom [] ws ++ Deflater.flush ws) := by
        rw [foldl_write_gz ws [] o1 h1]
        simp only [Sink.flush, List.nil_append]
        rw [OutFile.write_end rfl]
        simp [OutFile.extended]
      have f2 : (List.foldl Sink.write { out := o2 } ws).flush.out = o2.extended ws.flatten := by
        rw [foldl_write_plain ws o2 h2]
        rfl
      rw [f1] at hw
      rw [f2]
      obtain ⟨ms, k1, k2, k3, k4⟩ := ih (extended_atEnd _ _) (o2 := o2.extended ws.flatten) (extended_atEnd _ _) hw
      refine ⟨(Deflater.outFrom [] ws ++ Deflater.flush ws, ws.flatten) :: ms, by simp [k1], ?_, ?_, ?_⟩
      · intro m hm
        rcases List.mem_cons.1 hm with rfl | hm
        · exact L ws
        · exact k2 m hm
      · rw [k3]; simp [OutFile.extended]
      · rw [k4]; simp [OutFile.extended]

/-! ## C46 -/

omit [Hashlib] [Deflater] in
theorem linkRequest_eq {req resp : OutRecord FileObj} {u t : Str} (hu : firstValue (lit "WARC-Target-URI") resp.recHeaders.headers = some u)
    (ht : firstValue (lit "WARC-Date") resp.recHeaders.headers = some t) :
    ∃ hs, linkRequest req resp = some { req with recHeaders := { req.recHeaders with headers := hs } } ∧
      hs = (StatusAndHeaders.replaceIn (StatusAndHeaders.replaceIn req.recHeaders.headers (lit "WARC-Target-URI") u).2 (lit "WARC-Date") t).2 ++
        (if Loader.truthy (firstValue (lit "WARC-Record-ID") resp.recHeaders.headers) then
          [(lit "WARC-Concurrent-To", (firstValue (lit "WARC-Record-ID") resp.recHeaders.headers).getD [])] else []) := by
  rw [Loader.firstValue_eq] at hu ht
  rw [Loader.firstValue_eq]
  refine ⟨_, ?_, rfl⟩
  unfold linkRequest
  have h1 : resp.recHeaders.getHeader (lit "WARC-Target-URI") = some u := hu
  have h2 : resp.recHeaders.getHeader (lit "WARC-Date") = some t := ht
  rw [h1, h2]
  simp only
  have e : StatusAndHeaders.findHeader (lit "WARC-Record-ID") resp.recHeaders.headers = resp.recHeaders.getHeader (lit "WARC-Record-ID") := rfl
  rw [e]
  split
  · rfl
  · rw [List.append_nil]; rfl

omit [Hashlib] [Deflater] in
theorem one_first {n v : Str} {hs : List Header} (h1 : firstValue n hs = some v) (h2 : AtMostOne n hs) : values n hs = [v] := by
  rw [Loader.firstValue_eq, findHeader_filter] at h1
  have h2 : (hs.filter (StatusAndHeaders.nameEq n)).length ≤ 1 := h2
  show List.map _ (hs.filter (StatusAndHeaders.nameEq n)) = _
  generalize hs.filter (StatusAndHeaders.nameEq n) = l at h1 h2
  match l, h2 with
  | [], _ => cases h1
  | [x], _ =>
    cases h1
    rfl

/-- The request that is linked to its response can be written, and what its headers then are. -/
theorem linked_facts {c : BuilderCfg} {req resp : OutRecord FileObj} {hb' d' : Bytes} (hw' : Writable c.filter req hb' d') {u t : Str}
    (hu : firstValue (lit "WARC-Target-URI") resp.recHeaders.headers = some u) (ht : firstValue (lit "WARC-Date") resp.recHeaders.headers = some t)
    (h1 : AtMostOne (lit "WARC-Target-URI") req.recHeaders.headers) (h2 : AtMostOne (lit "WARC-Date") req.recHeaders.headers) (f : Bytes → Bytes) :
    ∃ R, linkRequest req resp = some R ∧ Writable c.filter R hb' d' ∧ R.recHeaders.protocol = req.recHeaders.protocol ∧
      R.recHeaders.statusline = req.recHeaders.statusline ∧ R.recType = req.recType ∧ R.length = req.length ∧
      values (lit "WARC-Target-URI") (writtenHeaders f R hb' d') = [u] ∧ values (lit "WARC-Date") (writtenHeaders f R hb' d') = [t] ∧
      (∀ id, id ≠ [] → firstValue (lit "WARC-Record-ID") resp.recHeaders.headers = some id →
        named (lit "WARC-Concurrent-To") (writtenHeaders f R hb' d') = named (lit "WARC-Concurrent-To") req.recHeaders.headers ++ [(lit "WARC-Concurrent-To", id)]) ∧
      without (ownNames ++ [lit "WARC-Target-URI", lit "WARC-Date", lit "WARC-Concurrent-To"]) (writtenHeaders f R hb' d') =
        without (ownNames ++ [lit "WARC-Target-URI", lit "WARC-Date", lit "WARC-Concurrent-To"]) req.recHeaders.headers ∧
      (∀ n, PyUni.lower (lit "WARC-Target-URI") ≠ PyUni.lower n → PyUni.lower (lit "WARC-Date") ≠ PyUni.lower n → PyUni.lower (lit "WARC-Concurrent-To") ≠ PyUni.lower n →
        named n R.recHeaders.headers = named n req.recHeaders.headers) := by
  obtain ⟨L, l1, l2⟩ := linkRequest_eq (req := req) hu ht
  have hw'' : Writable c.filter ({ req with recHeaders := { req.recHeaders with headers := L } } : OutRecord FileObj) hb' d' := by
    refine ⟨hw'.stream, ?_, ?_, hw'.version⟩
    · cases hw'.http with
      | none h => exact .none h
      | empty h a b c => exact .empty h a b c
      | some h _ a b c => exact .some h _ a b c
    · cases hw'.lengths with
      | unknown a b => exact .unknown a b
      | payload n a b c d => exact .payload n a b c d
      | block a b => exact .block a b
  generalize hR : ({ req with recHeaders := { req.recHeaders with headers := L } } : OutRecord FileObj) = R at *
  have r1 : R.recHeaders.headers = L := by rw [← hR]
  have r2 : R.recHeaders.protocol = req.recHeaders.protocol := by rw [← hR]
  have r3 : R.recHeaders.statusline = req.recHeaders.statusline := by rw [← hR]
  have hd1 : PyUni.lower (lit "WARC-Target-URI") ≠ PyUni.lower (lit "WARC-Date") := differ (by decide) (by decide) (by decide)
  have hd2 : PyUni.lower (lit "WARC-Target-URI") ≠ PyUni.lower (lit "WARC-Concurrent-To") := differ (by decide) (by decide) (by decide)
  have hd3 : PyUni.lower (lit "WARC-Date") ≠ PyUni.lower (lit "WARC-Concurrent-To") := differ (by decide) (by decide) (by decide)
  have a0 : ∀ n ∈ ownNames, PyUni.lower n ≠ PyUni.lower (lit "WARC-Target-URI") := by
    intro n hn
    simp only [ownNames, List.mem_cons, List.not_mem_nil, or_false] at hn
    rcases hn with rfl | rfl | rfl | rfl <;> exact differ (by decide) (by decide) (by decide)
  have b0 : ∀ n ∈ ownNames, PyUni.lower n ≠ PyUni.lower (lit "WARC-Date") := by
    intro n hn
    simp only [ownNames, List.mem_cons, List.not_mem_nil, or_false] at hn
    rcases hn with rfl | rfl | rfl | rfl <;> exact differ (by decide) (by decide) (by decide)
  have c0 : ∀ n ∈ ownNames, PyUni.lower n ≠ PyUni.lower (lit "WARC-Concurrent-To") := by
    intro n hn
    simp only [ownNames, List.mem_cons, List.not_mem_nil, or_false] at hn
    rcases hn with rfl | rfl | rfl | rfl <;> exact differ (by decide) (by decide) (by decide)
  have pass : ∀ {m : Str}, (∀ n ∈ ownNames, PyUni.lower n ≠ PyUni.lower m) →
      (writtenHeaders f R hb' d').filter (StatusAndHeaders.nameEq m) = L.filter (StatusAndHeaders.nameEq m) := by
    intro m hm
    rw [written_passes f R hb' d' (passes_other (hm _ (by simp [ownNames]))) (passes_other (hm _ (by simp [ownNames]))) (passes_other (hm _ (by simp [ownNames])))
      (passes_other (hm _ (by simp [ownNames]))), r1]
  have tail : ∀ {m : Str}, PyUni.lower m ≠ PyUni.lower (lit "WARC-Concurrent-To") → L.filter (StatusAndHeaders.nameEq m) =
      (StatusAndHeaders.replaceIn (StatusAndHeaders.replaceIn req.recHeaders.headers (lit "WARC-Target-URI") u).2 (lit "WARC-Date") t).2.filter (StatusAndHeaders.nameEq m) := by
    intro m hm
    rw [l2, List.filter_append]
    split
    · rw [List.filter_cons, StatusAndHeaders.nameEq_other hm.symm (StatusAndHeaders.nameEq_self _ _)]
      simp
    · simp
  refine ⟨R, l1, hw'', r2, r3, by rw [← hR], by rw [← hR], ?_, ?_, ?_, ?_, ?_⟩
  · refine one_first ?_ ?_
    · rw [Loader.firstValue_eq, findHeader_filter, pass a0, tail hd2, filter_replace_passes (passes_other hd1.symm), ← findHeader_filter]
      exact StatusAndHeaders.findHeader_replace_self h1 _
    · show (List.filter (StatusAndHeaders.nameEq _) _).length ≤ 1
      rw [pass a0, tail hd2, filter_replace_passes (passes_other hd1.symm)]
      exact Loader.filter_replace_self h1 _
  · have h2' : (List.filter (StatusAndHeaders.nameEq (lit "WARC-Date")) (StatusAndHeaders.replaceIn req.recHeaders.headers (lit "WARC-Target-URI") u).2).length ≤ 1 := by
      rw [filter_replace_passes (passes_other hd1)]
      exact h2
    refine one_first ?_ ?_
    · rw [Loader.firstValue_eq, findHeader_filter, pass b0, tail hd3, ← findHeader_filter]
      exact StatusAndHeaders.findHeader_replace_self h2' _
    · show (List.filter (StatusAndHeaders.nameEq _) _).length ≤ 1
      rw [pass b0, tail hd3]
      exact Loader.filter_replace_self h2' _
  · intro id hid he
    refine Eq.trans (pass c0) ?_
    rw [l2, he]
    have : Loader.truthy (some id) = true := by simp [Loader.truthy, hid]
    rw [this, if_pos rfl, List.filter_append, filter_replace_passes (passes_other hd3), filter_replace_passes (passes_other hd2), List.filter_cons,
      StatusAndHeaders.nameEq_self]
    rfl
  · have p : ∀ {n : Str}, n ∈ ownNames ++ [lit "WARC-Target-URI", lit "WARC-Date", lit "WARC-Concurrent-To"] → _ := fun h => passes_without h
    refine Eq.trans (written_passes f R hb' d' (p (by simp [ownNames])) (p (by simp [ownNames])) (p (by simp [ownNames])) (p (by simp [ownNames]))) ?_
    rw [r1, l2, List.filter_append, filter_replace_passes (p (by simp)), filter_replace_passes (p (by simp))]
    split
    · rw [List.filter_cons_of_neg]
      · simp [without]
      · rw [Bool.not_eq_true]
        exact p (n := lit "WARC-Concurrent-To") (by simp) _ (StatusAndHeaders.nameEq_self _ _)
    · simp [without]
  · intro n e1 e2 e3
    rw [r1, l2]
    unfold named
    rw [List.filter_append]
    have hx : ∀ hs : List Header, hs.filter (fun h => PyUni.lower h.1 == PyUni.lower n) = hs.filter (StatusAndHeaders.nameEq n) := fun _ => rfl
    rw [hx, hx, hx, filter_replace_passes (passes_other e2), filter_replace_passes (passes_other e1)]
    split
    · rw [List.filter_cons, StatusAndHeaders.nameEq_other e3 (StatusAndHeaders.nameEq_self _ _)]
      simp
    · simp

/-- C46: the response is written first, then the request, with the URI and the date of the response
and with its id in `WARC-Concurrent-To`.  Partial: the response has a URI and a date (see
`C46_missing`), and the request does not have two of them. -/
theorem C46_pair_partial {f : Bytes → Bytes} (H : Hashlib.hash (lit "sha1") = some f) {c : BuilderCfg} (hg : c.gzip = false) {req resp : OutRecord FileObj}
    {hb d hb' d' : Bytes} (hw : Writable c.filter resp hb d) (hw' : Writable c.filter req hb' d') {u t : Str}
    (hu : firstValue (lit "WARC-Target-URI") resp.recHeaders.headers = some u) (ht : firstValue (lit "WARC-Date") resp.recHeaders.headers = some t)
    (h1 : AtMostOne (lit "WARC-Target-URI") req.recHeaders.headers) (h2 : AtMostOne (lit "WARC-Date") req.recHeaders.headers)
    {o : OutFile} (ho : o.AtEnd) :
    ∃ hs hs' req' resp', writePair c req resp o = (.ok (), req', resp',
        o.extended (recordBytes resp.recHeaders.protocol resp.recHeaders.statusline hs (blockOf resp hb d) ++
          recordBytes req.recHeaders.protocol req.recHeaders.statusline hs' (blockOf req hb' d'))) ∧
      HeadersFor resp (blockOf resp hb d) hs ∧
      lastValue (lit "Content-Length") hs' = some (intToStr (len (blockOf req hb' d'))) ∧
      values (lit "WARC-Target-URI") hs' = [u] ∧ values (lit "WARC-Date") hs' = [t] ∧
      (∀ id, id ≠ [] → firstValue (lit "WARC-Record-ID") resp.recHeaders.headers = some id →
        named (lit "WARC-Concurrent-To") hs' = named (lit "WARC-Concurrent-To") req.recHeaders.headers ++ [(lit "WARC-Concurrent-To", id)]) ∧
      without (ownNames ++ [lit "WARC-Target-URI", lit "WARC-Date", lit "WARC-Concurrent-To"]) hs' =
        without (ownNames ++ [lit "WARC-Target-URI", lit "WARC-Date", lit "WARC-Concurrent-To"]) req.recHeaders.headers := by
  obtain ⟨R, l1, hw'', r2, r3, r4, -, e1, e2, e3, e4, -⟩ := linked_facts hw' hu ht h1 h2 f
  obtain ⟨resp', k1, k2, -⟩ := write_plain H hg hw ho
  obtain ⟨req', m1, m2, -⟩ := write_plain H hg hw'' (extended_atEnd o (recordBytes resp.recHeaders.protocol resp.recHeaders.statusline (writtenHeaders f resp hb d) (blockOf resp hb d)))
  have r5 : blockOf R hb' d' = blockOf req hb' d' := by unfold blockOf; rw [r4]
  refine ⟨_, writtenHeaders f R hb' d', req', resp', ?_, headersFor f resp hb d, r5 ▸ (headersFor f R hb' d').length, e1, e2, e3, e4⟩
  unfold writePair
  rw [l1, k1]
  simp only
  rw [m1, r2, r3, r5]
  simp [OutFile.extended]

/-- C46 fails if the response lacks the URI or the date: the response is written, then writing the
request raises a `TypeError`, and nothing of the request is written. -/
theorem C46_missing {f : Bytes → Bytes} (H : Hashlib.hash (lit "sha1") = some f) {c : BuilderCfg} (hg : c.gzip = false) {req resp : OutRecord FileObj}
    {hb d : Bytes} (hw : Writable c.filter resp hb d)
    (hu : firstValue (lit "WARC-Target-URI") resp.recHeaders.headers = none ∨ firstValue (lit "WARC-Date") resp.recHeaders.headers = none)
    {o : OutFile} (ho : o.AtEnd) :
    ∃ hs req' resp', writePair c req resp o = (.error .typeError, req', resp',
        o.extended (recordBytes resp.recHeaders.protocol resp.recHeaders.statusline hs (blockOf resp hb d))) := by
  obtain ⟨resp', k1, k2, -⟩ := write_plain H hg hw ho
  have hl : linkRequest req resp = none := by
    unfold linkRequest
    have h1 : firstValue (lit "WARC-Target-URI") resp.recHeaders.headers = resp.recHeaders.getHeader (lit "WARC-Target-URI") := Loader.firstValue_eq _ _
    have h2 : firstValue (lit "WARC-Date") resp.recHeaders.headers = resp.recHeaders.getHeader (lit "WARC-Date") := Loader.firstValue_eq _ _
    rw [h1, h2] at hu
    rcases hu with hu | hu
    · rw [hu]
    · rw [hu]
      cases resp.recHeaders.getHeader (lit "WARC-Target-URI") <;> rfl
  refine ⟨writtenHeaders f resp hb d, req, resp', ?_⟩
  unfold writePair
  rw [hl, k1]

end
section
variable [PyUni] [Hashlib] [Deflater]

/-! ## C49 -/

omit [Hashlib] [Deflater] in
/-- Setting a header to the value it has. -/
theorem replace_same {n v : Str} {hs : List Header} (h : lastValue n hs = some v) : (StatusAndHeaders.replaceIn hs n v).2 = hs := by
  rcases StatusAndHeaders.last_match n hs with h0 | ⟨pre, x, post, rfl, h1, h2⟩
  · rw [lastValue_none.2 h0] at h; cases h
  · rw [lastValue_append, lastValue_cons, lastValue_none.2 h2, lastValue_one h1] at h
    simp only [Option.none_or, Option.some_or, Option.some.injEq] at h
    rw [StatusAndHeaders.replaceIn_some h1 h2, ← h]

omit [Deflater] [Hashlib] in
theorem drained {s0 s : RecStream FileObj} {bufs : List Bytes} (h : holds s0 []) (hi : Builder.iterAll s0 = (bufs, .ok (), s)) : holds s [] := by
  cases s0 with
  | own f =>
    obtain ⟨b, f', h1, h2, h3, h4, h5⟩ := f.iterAll
    rw [iterAll_own, h1] at hi
    cases hi
    exact h5
  | mem f =>
    obtain ⟨b, f', h1, h2, h3, h4, h5⟩ := f.iterAll
    rw [iterAll_mem, h1] at hi
    cases hi
    exact h5
  | closed => exact absurd h (fun h => h)

omit [Hashlib] [Deflater] in
/-- After writing, the digests are there. -/
theorem truthy_written (f : Bytes → Bytes) {r : OutRecord FileObj} (hb : Bytes) {d : Bytes} (h1 : firstValue (lit "WARC-Block-Digest") r.recHeaders.headers ≠ some [])
    (h2 : firstValue (lit "WARC-Payload-Digest") r.recHeaders.headers ≠ some [])
    (h3 : r.length = none → AtMostOne (lit "WARC-Block-Digest") r.recHeaders.headers ∧ AtMostOne (lit "WARC-Payload-Digest") r.recHeaders.headers) :
    Loader.truthy (StatusAndHeaders.findHeader (lit "WARC-Block-Digest") (writtenHeaders f r hb d)) = true ∧
    (Loader.truthy (StatusAndHeaders.findHeader (lit "WARC-Payload-Digest") (writtenHeaders f r hb d)) || Builder.noPayloadDigest r.recType) = true := by
  obtain ⟨-, -, -, n4, n5, n6⟩ := names_differ
  rw [Loader.firstValue_eq] at h1 h2
  have b1 : StatusAndHeaders.findHeader (lit "WARC-Block-Digest") (baseHeaders r) ≠ some [] := by
    by_cases hk : r.length = none
    · have : (baseHeaders r).filter (StatusAndHeaders.nameEq (lit "WARC-Block-Digest")) = [] := by
        unfold baseHeaders
        rw [hk]
        dsimp only
        rw [filter_remove_passes (passes_other n4)]
        split
        · exact filter_remove_self (h3 hk).1
        · rw [filter_remove_passes (passes_other n6.symm)]
          exact filter_remove_self (h3 hk).1
      rw [filter_nil_iff.1 this]; simp
    · rw [base_known hk]; exact h1
  have b2 : Builder.noPayloadDigest r.recType = true ∨ StatusAndHeaders.findHeader (lit "WARC-Payload-Digest") (baseHeaders r) ≠ some [] := by
    by_cases hk : r.length = none
    · by_cases hr : r.recType = some (lit "revisit")
      · left; simp [Builder.noPayloadDigest, hr]
      · right
        have : (baseHeaders r).filter (StatusAndHeaders.nameEq (lit "WARC-Payload-Digest")) = [] := by
          unfold baseHeaders
          rw [hk]
          simp only [hr, if_false]
          rw [filter_remove_passes (passes_other n5)]
          apply filter_remove_self
          show (List.filter (StatusAndHeaders.nameEq (lit "WARC-Payload-Digest")) _).length ≤ 1
          rw [filter_remove_passes (passes_other n6)]
          exact (h3 hk).2
        rw [filter_nil_iff.1 this]; simp
    · right; rw [base_known hk]; exact h2
  have htr : ∀ {x : Option Str}, x ≠ some [] → Loader.truthy x = false → x = none := by
    intro x hx ht
    cases x with
    | none => rfl
    | some v => cases v with
      | nil => exact absurd rfl hx
      | cons a t => simp [Loader.truthy] at ht
  have hsha : ∀ x : Bytes, Loader.truthy (some (sha1Of f x)) = true := fun x => rfl
  have hB := (written_digests f r hb d (.inl rfl)).trans (block_digests f r hb d)
  have hP := (written_digests f r hb d (.inr rfl)).trans (payload_digests f r hb d)
  refine ⟨?_, ?_⟩
  · rw [findHeader_filter, hB]
    cases ht : Loader.truthy (StatusAndHeaders.findHeader (lit "WARC-Block-Digest") (baseHeaders r)) with
    | true => rw [if_pos rfl, List.append_nil, ← findHeader_filter]; exact ht
    | false =>
      rw [filter_nil_iff.2 (htr b1 ht)]
      exact hsha _
  · cases hn : Builder.noPayloadDigest r.recType with
    | true => simp
    | false =>
      rw [hn] at b2 hP
      rw [Bool.or_false] at hP ⊢
      rw [findHeader_filter, hP]
      cases ht : Loader.truthy (StatusAndHeaders.findHeader (lit "WARC-Payload-Digest") (baseHeaders r)) with
      | true => rw [if_pos rfl, List.append_nil, ← findHeader_filter]; exact ht
      | false =>
        rw [filter_nil_iff.2 (htr (by rcases b2 with b2 | b2; cases b2; exact b2) ht)]
        exact hsha _

/-- C49: writing a record a second time writes the same bytes.  Partial: only for records without
payload (see `C49_payload`), and if no digest header is empty (see `C49_empty_digest`). -/
theorem C49_twice_partial {f : Bytes → Bytes} (H : Hashlib.hash (lit "sha1") = some f) {c : BuilderCfg} (hg : c.gzip = false) {r : OutRecord FileObj} {hb : Bytes}
    (hw : Writable c.filter r hb []) (hn : r.orig = none) (h1 : firstValue (lit "WARC-Block-Digest") r.recHeaders.headers ≠ some [])
    (h2 : firstValue (lit "WARC-Payload-Digest") r.recHeaders.headers ≠ some [])
    (h3 : r.length = none → AtMostOne (lit "WARC-Block-Digest") r.recHeaders.headers ∧ AtMostOne (lit "WARC-Payload-Digest") r.recHeaders.headers) {o : OutFile} (ho : o.AtEnd) :
    ∃ b r' r'', write c r o = (.ok (), r', o.extended b) ∧ write c r' (o.extended b) = (.ok (), r'', o.extended (b ++ b)) := by
  obtain ⟨r', k1, k2, k3⟩ := write_plain H hg hw ho
  have hbl : blockOf r' hb [] = blockOf r hb [] := by unfold blockOf; rw [k3.recType]
  have hb0 : blockOf r hb [] = hb := by unfold blockOf; split <;> simp
  have hs : Holds r'.raw [] := by
    have key : holds r'.raw [] := by
      obtain ⟨raw, orig, bufs, s, m1, m2, m3, m4⟩ := k3.streams
      split at m4
      · rw [show r'.raw = raw from congrArg Prod.fst m4]; exact m1
      · rcases m2 with ⟨m2, -⟩ | ⟨bufs', s', m2, m6⟩
        · rw [m2, hn] at m4
          rw [show r'.raw = s from congrArg Prod.fst m4]
          exact drained m1 m3
        · rw [m2] at m4
          rw [show r'.raw = s' from congrArg Prod.fst m4]
          exact drained (holds_of hw.stream) m6
    cases hr : r'.raw with
    | own f => rw [hr] at key; exact key
    | mem f => rw [hr] at key; exact key
    | closed => rw [hr] at key; exact key
  have hl : LengthsFit r' hb [] := by
    have hk := k3.length
    rw [← hbl] at hk
    by_cases he : hb = []
    · exact .block (fun h => absurd he h) hk
    · cases hp : r'.payloadLength with
      | none =>
        rcases k3.payloadLength with h | h
        · cases hw.lengths with
          | unknown a b =>
            rw [k3.unknown a] at hp; cases hp
          | payload n a b => rw [hp, b] at h; cases h
          | block a b => obtain ⟨n, a, -⟩ := a he; rw [hp, a] at h; cases h
        · rw [hp] at h; cases h
      | some n =>
        by_cases hneg : n < 0
        · exact .block (fun _ => ⟨n, hp, hneg⟩) hk
        · refine .payload n he hp (by omega) ?_
          intro ht
          rcases k3.payloadLength with h | h
          · cases hw.lengths with
            | unknown a b => rw [k3.unknown a] at hp; cases hp; rfl
            | payload m a b c d => rw [hp, b] at h; cases h; exact d (k3.recType ▸ ht)
            | block a b => obtain ⟨m, a, a'⟩ := a he; rw [hp, a] at h; cases h; omega
          · rw [hp] at h; cases h; rfl
  have hw' : Writable c.filter r' hb [] := ⟨hs, k3.http, hl, by rw [k2]; exact hw.version⟩
  obtain ⟨r'', q1, q2, -⟩ := write_plain H hg hw' (extended_atEnd o (recordBytes r.recHeaders.protocol r.recHeaders.statusline (writtenHeaders f r hb []) (blockOf r hb [])))
  refine ⟨_, r', r'', k1, ?_⟩
  have heads : writtenHeaders f r' hb [] = writtenHeaders f r hb [] := by
    have hW : r'.recHeaders.headers = writtenHeaders f r hb [] := by rw [k2]
    have hbase : baseHeaders r' = writtenHeaders f r hb [] := by
      rw [base_known (by rw [k3.length]; simp), hW]
    obtain ⟨hB, hP⟩ := truthy_written f hb h1 h2 h3
    have hdig : digestedHeaders f r' hb [] = writtenHeaders f r hb [] := by
      unfold digestedHeaders
      rw [hbase, hB, k3.recType, hP]
      simp [newDigests]
    have hfor := headersFor f r hb []
    have htyp : typedHeaders r'.contentType (writtenHeaders f r hb []) = writtenHeaders f r hb [] := by
      rw [k3.contentType]
      unfold typedHeaders
      split
      · rename_i t ht; exact replace_same (hfor.type t ht)
      · rfl
    rw [writtenHeaders, hdig, htyp, hbl]
    exact replace_same hfor.length
  rw [q1, heads, hbl]
  have e1 : r'.recHeaders.protocol = r.recHeaders.protocol := by rw [k2]
  have e2 : r'.recHeaders.statusline = r.recHeaders.statusline := by rw [k2]
  rw [e1, e2]
  simp [OutFile.extended]

end

/-! ## Examples, and where the properties fail -/

/-- Record headers. -/
def wHead (t : Str) : StatusAndHeaders :=
  { statusline := [], headers := [(lit "WARC-Type", t), (lit "WARC-Target-URI", lit "http://a/"), (lit "WARC-Date", lit "2020"), (lit "WARC-Record-ID", lit "<urn:1>")], protocol := lit "WARC/1.0" }

/-- HTTP headers. -/
def wHttp : StatusAndHeaders := { statusline := lit "200 OK", headers := [(lit "A", lit "b")], protocol := lit "HTTP/1.0" }

/-- A response with a payload from a stream that cannot seek and that gives one byte at first. -/
def wResponse : OutRecord FileObj :=
  { recType := some (lit "response"), recHeaders := wHead (lit "response"), raw := .own { content := [97, 98, 99], caps := [1], seekable := false }, httpHeaders := some wHttp,
    contentType := some (lit "x/y"), length := some 3, payloadLength := some 3 }

/-- The same with stale digests and without length. -/
def wUnknown : OutRecord FileObj :=
  { wResponse with length := none, payloadLength := none, recHeaders := (wHead (lit "response")).addHeader (lit "warc-block-digest") (lit "sha1:x") }

/-- A revisit record that was given a payload. -/
def wRevisit : OutRecord FileObj :=
  { wResponse with recType := some (lit "revisit"), recHeaders := wHead (lit "revisit"), httpHeaders := none }

/-- What a record was created or written as: the result, the bytes behind the header block
of the record's headers after writing, and `Content-Length`. -/
def wResult [PyUni] [Hashlib] [Deflater] (r : Except PyErr (OutRecord FileObj)) : Except PyErr Unit × Option Bytes × Option Str :=
  match r with
  | .error e => (.error e, none, none)
  | .ok r =>
    let (x, r', o) := write { gzip := false } r {}
    let h := utf8Encode (headText r.recHeaders.protocol r.recHeaders.statusline r'.recHeaders.headers)
    (x, if h <+: o.content then some (o.content.drop h.length) else none, lastValue (lit "Content-Length") r'.recHeaders.headers)

/-- A clock. -/
def wEnv : Env := { newId := lit "<urn:uuid:1>", now := { year := 2020, month := 1, day := 2, hour := 3, minute := 4, second := 5, micro := 6 } }

theorem w_httpPart : HttpPart some wResponse (utf8Encode (lit "HTTP/1.0 200 OK\r\nA: b\r\n\r\n")) :=
  .some wHttp _ rfl (.inl (by decide)) (by decide +kernel)

/-- The hypotheses of C40 and C41 hold for a response with HTTP headers. -/
example : Writable some wResponse (utf8Encode (lit "HTTP/1.0 200 OK\r\nA: b\r\n\r\n")) [97, 98, 99] ∧ wResponse.length ≠ none ∧
    wResponse.recType ≠ some (lit "revisit") ∧ ({} : OutFile).AtEnd :=
  ⟨⟨rfl, w_httpPart, .payload 3 (by decide) rfl (by decide) (by decide), by decide⟩, by decide, by decide, by decide⟩

open Toy in
/-- The hypotheses of C42 hold for a response with a stale digest. -/
example : Holds wUnknown.raw [97, 98, 99] ∧ HttpPart some wUnknown (utf8Encode (lit "HTTP/1.0 200 OK\r\nA: b\r\n\r\n")) ∧ wUnknown.length = none ∧
    AtMostOne (lit "WARC-Block-Digest") wUnknown.recHeaders.headers ∧ AtMostOne (lit "WARC-Payload-Digest") wUnknown.recHeaders.headers :=
  ⟨rfl, .some wHttp _ rfl (.inl (by decide)) (by decide +kernel), rfl, by decide, by decide⟩

open Toy in
/-- What C42 is about, computed. -/
example : wResult (.ok wUnknown) = (.ok (), some (utf8Encode (lit "HTTP/1.0 200 OK\r\nA: b\r\n\r\nabc\r\n\r\n")), some (lit "28")) := by decide +kernel

open Toy in
/-- The hypotheses of C45 hold: a toy compressor. -/
example : LawfulDeflater IsMember ∧ (write { gzip := true } wResponse {}).1 = .ok () := ⟨lawfulDeflater, by decide +kernel⟩

open Toy in
/-- The hypotheses of C46 hold. -/
example : firstValue (lit "WARC-Target-URI") wResponse.recHeaders.headers = some (lit "http://a/") ∧ firstValue (lit "WARC-Date") wResponse.recHeaders.headers = some (lit "2020") ∧
    AtMostOne (lit "WARC-Target-URI") (wHead (lit "request")).headers ∧ AtMostOne (lit "WARC-Date") (wHead (lit "request")).headers ∧
    (writePair { gzip := false } { wResponse with recType := some (lit "request"), recHeaders := wHead (lit "request") } wResponse {}).1 = .ok () := by
  decide +kernel

open Toy in
/-- C40 fails if the caller's length is wrong: `Content-Length` is 2, and three bytes are written. -/
theorem C40_wrong_length : wResult (.ok { wResponse with httpHeaders := none, length := some 2, payloadLength := some 2 }) =
    (.ok (), some (utf8Encode (lit "abc\r\n\r\n")), some (lit "2")) := by
  decide +kernel

open Toy in
/-- C40 fails for a response created from a payload that starts with an empty line: this line is
taken as (empty) HTTP headers, and is neither written nor subtracted from the length. -/
theorem C40_blank_line :
    wResult (Builder.createRecord (σ := FileObj) {} wEnv { uri := lit "http://a/", recType := lit "response", payload := some (.own { content := utf8Encode (lit "\r\nabc") }), length := some 5 }) =
    (.ok (), some (utf8Encode (lit "abc\r\n\r\n")), some (lit "5")) := by
  decide +kernel

open Toy in
/-- C40 fails for a response created from a payload stream that is not at position 0: what was in
front of it is subtracted from the length. -/
theorem C40_position :
    wResult (Builder.createRecord (σ := FileObj) {} wEnv { uri := lit "http://a/", recType := lit "response", payload := some (.own { content := utf8Encode (lit "xHTTP/1.0 200 OK\r\nA: b\r\n\r\nabc"), pos := 1 }), length := some 28 }) =
    (.ok (), some (utf8Encode (lit "HTTP/1.0 200 OK\r\nA: b\r\n\r\nabc\r\n\r\n")), some (lit "27")) := by
  decide +kernel

open Toy in
/-- C40 fails for a revisit record that has a payload but no HTTP headers: its length is written,
but no block. -/
theorem C40_revisit : wResult (.ok wRevisit) = (.ok (), some (utf8Encode (lit "\r\n\r\n")), some (lit "3")) := by
  decide +kernel

open Toy in
/-- C41 fails for a revisit record that has a payload: the block is the HTTP headers, the block
digest is that of the HTTP headers and the payload. -/
theorem C41_revisit : ∃ r : OutRecord FileObj,
    wResult (.ok r) = (.ok (), some (utf8Encode (lit "HTTP/1.0 200 OK\r\nA: b\r\n\r\n\r\n\r\n")), some (lit "25")) ∧
    lastValue (lit "WARC-Block-Digest") (write { gzip := false } r {}).2.1.recHeaders.headers =
      some (sha1Text sha1 (utf8Encode (lit "HTTP/1.0 200 OK\r\nA: b\r\n\r\nabc"))) ∧
    sha1Text sha1 (utf8Encode (lit "HTTP/1.0 200 OK\r\nA: b\r\n\r\nabc")) ≠ sha1Text sha1 (utf8Encode (lit "HTTP/1.0 200 OK\r\nA: b\r\n\r\n")) :=
  ⟨{ wRevisit with httpHeaders := some wHttp }, by decide +kernel⟩

open Toy in
/-- C42 fails for a record with two block digests: one of them is kept, though it is stale. -/
theorem C42_duplicate : ∃ r : OutRecord FileObj, r.length = none ∧
    wResult (.ok r) = (.ok (), some (utf8Encode (lit "abc\r\n\r\n")), some (lit "3")) ∧
    named (lit "WARC-Block-Digest") (write { gzip := false } r {}).2.1.recHeaders.headers = [(lit "WARC-Block-Digest", lit "sha1:x")] :=
  ⟨{ wUnknown with httpHeaders := none, recHeaders := ((wHead (lit "response")).addHeader (lit "WARC-Block-Digest") (lit "sha1:x")).addHeader (lit "WARC-Block-Digest") (lit "sha1:y") },
    by decide +kernel⟩

/-- The hypotheses of C49 hold for a revisit record with HTTP headers. -/
def wSeen : OutRecord FileObj := { wRevisit with raw := .mem { content := [] }, httpHeaders := some wHttp, length := some 0, payloadLength := some 0 }

open Toy in
example : Writable some wSeen (utf8Encode (lit "HTTP/1.0 200 OK\r\nA: b\r\n\r\n")) [] ∧ wSeen.orig = none ∧
    firstValue (lit "WARC-Block-Digest") wSeen.recHeaders.headers ≠ some [] ∧ firstValue (lit "WARC-Payload-Digest") wSeen.recHeaders.headers ≠ some [] ∧ wSeen.length ≠ none :=
  ⟨⟨rfl, .some wHttp _ rfl (.inl (by decide)) (by decide +kernel), .payload 0 (by decide) rfl (by decide) (by decide), by decide⟩, by decide, by decide, by decide, by decide⟩

/-- The results of writing a record twice, and the bytes that stand behind the first record. -/
def wTwice [PyUni] [Hashlib] [Deflater] (r : OutRecord FileObj) : Except PyErr Unit × Except PyErr Unit × Bytes × Bool :=
  let (x, r', o) := write { gzip := false } r {}
  let (x', r'', o') := write { gzip := false } r' o
  let h := utf8Encode (headText r.recHeaders.protocol r.recHeaders.statusline r''.recHeaders.headers)
  (x, x', (o'.content.drop o.content.length).drop h.length, r''.raw == .closed)

open Toy in
/-- C49 fails: the payload is written only the first time, though the second record still declares
its length.  If the payload stream cannot seek, writing it again also closes it. -/
theorem C49_payload :
    wTwice wResponse = (.ok (), .ok (), utf8Encode (lit "HTTP/1.0 200 OK\r\nA: b\r\n\r\n\r\n\r\n"), true) ∧
    lastValue (lit "Content-Length") (write { gzip := false } (write { gzip := false } wResponse {}).2.1 {}).2.1.recHeaders.headers = some (lit "28") ∧
    wTwice { wResponse with raw := .own { content := [97, 98, 99] } } = (.ok (), .ok (), utf8Encode (lit "HTTP/1.0 200 OK\r\nA: b\r\n\r\n\r\n\r\n"), false) := by
  decide +kernel

open Toy in
/-- C49 fails for a record with an empty digest header: each time a digest is added. -/
theorem C49_empty_digest : ∃ r : OutRecord FileObj, Holds r.raw [] ∧
    ((write { gzip := false } r {}).2.1.recHeaders.headers.length = 7 ∧ (write { gzip := false } (write { gzip := false } r {}).2.1 {}).2.1.recHeaders.headers.length = 8) :=
  ⟨{ wSeen with recHeaders := (wHead (lit "revisit")).addHeader (lit "WARC-Block-Digest") [], contentType := none }, rfl, by decide +kernel⟩

end Warcio.Props
