import Verif.Props.Iterator
import Verif.Proofs.Content

/-!
# Property C64: content streams

`WarcRecord.Content` (`Verif/Spec/Content.lean`) says what the content of a record is.
-/

set_option linter.unusedSectionVars false

namespace Warcio.Props

open Warcio ArchiveIter

section
variable [PyUni] [Hashlib] [Zlib] {IsMember : Bytes → Bytes → Prop} {IsCoded : DType → Bytes → Bytes → Prop}

/-- HTTP headers are parsed, if there are any. -/
structure Parses (io : IterOpts) : Prop where
  parse : io.noRecordParse = false
  ensure : io.ensureHttpHeaders = false

/-- The content stream of the record behind the plan. -/
theorem content_at (LC : LawfulCodecs IsCoded) {σ : Type} [PyStream σ] {multi : Bool} {last : Option PyErr} {it : ArchiveIter σ} {e : Expected} {pre es : List Expected}
    (hr : Ready multi last it (pre ++ e :: es)) {io : IterOpts} (hio : Parses io) {w : WarcRecord} {m : Nat} (hs : e.shows = w.Shows io m) (hl : w.Http → 64 ≤ e.line) {d : Bytes}
    (hc : w.Content IsCoded m d) {plan : List (List UserOp)} (hp : plan.length = pre.length) (ho : ∀ ops ∈ plan, ∀ o ∈ ops, GzOps multi o) :
    ∃ it' rec cs, advance it plan = .ok it' ∧ it'.current = some rec ∧ rec.contentStream = .ok cs ∧
      (∀ calls : List Call, (∀ c ∈ calls, c.nonneg) → Serves e.line d calls (runCalls cs calls).1 ∧ Ready multi last { it' with raw := (runCalls cs calls).2.below } es) ∧
      ∀ n : Int, 0 < n → (readAllBlocks n cs).2.1 = .ok () ∧ (readAllBlocks n cs).1.flatten = d := by
  obtain ⟨it', rec, left, k1, k2, k3, k4⟩ := Ready.advance pre hr hp ho
  rw [hs] at k3
  obtain ⟨cs, W, c1, c2, c3, c4⟩ := content_now LC k4 k3 hio.parse hio.ensure hl hc
  have hcur : it'.current = some (withRaw rec it'.raw) := by rw [current_eq, k2]; rfl
  refine ⟨it', withRaw rec it'.raw, cs, k1, hcur, c1, ?_, ?_⟩
  · intro calls hcalls
    obtain ⟨s1, rem, s2⟩ := (ContentStream.answers rawView_answers c2).serves calls c4 hcalls
    refine ⟨s1, ?_⟩
    obtain ⟨p, s3⟩ := s2.below c3
    exact Now.ready s3
  · intro n hn
    have G := ContentStream.gets (rawView_gets (multi := multi) (last := last) (it := it') (e := e) (es := es)) c2
    obtain ⟨bufs, s', b1, b2, -⟩ := G.readBlocks hn (PyStream.bound cs + 2) c4 (by have := G.bound c4; omega)
    have : readAllBlocks n cs = (bufs, .ok (), s') := b1
    rw [this]
    exact ⟨rfl, b2⟩

/-- C64 for a file that is not compressed.  Whatever was done with the records before it, calls on the
content stream of a record deliver its content, and the iteration goes on with the following record, however much of it was read. -/
theorem C64_plain_partial (L : LawfulGzip IsMember) (LC : LawfulCodecs IsCoded) {f : FileObj} {io : IterOpts} (hio : Parses io) {us vs : List WarcRecord} {w : WarcRecord} (hw : Fit io (us ++ w :: vs))
    (hf : f.rest = (us ++ w :: vs).flatMap WarcRecord.bytes) {bs m : Nat} (hr : Reads f bs m) {kf : Option Format} (hk : kf ≠ some .arc) (hl : w.Http → 64 ≤ m) {d : Bytes}
    (hc : w.Content IsCoded m d) {plan : List (List UserOp)} (hp : plan.length = us.length) (ho : PlanOk plan) :
    ∃ it it' rec cs, openArchive f io bs kf = .ok it ∧ advance it plan = .ok it' ∧ it'.current = some rec ∧ rec.contentStream = .ok cs ∧
      (∀ calls : List Call, (∀ c ∈ calls, c.nonneg) → Serves m d calls (runCalls cs calls).1 ∧
        ∀ more, PlanOk more → Yields .stopIteration (WarcRecord.placed io m (f.origin + len ((us ++ [w]).flatMap WarcRecord.bytes)) vs) more (iterate { it' with raw := (runCalls cs calls).2.below } more)) ∧
      ∀ n : Int, 0 < n → (readAllBlocks n cs).2.1 = .ok () ∧ (readAllBlocks n cs).1.flatten = d := by
  obtain ⟨it, k1, k2⟩ := plain_ready L hw (by rw [hf, List.append_nil]) (.inl rfl) (fun _ => by
    rw [hf]; have := two_le hw.good (by simp) []; rwa [List.append_nil] at this) (by
    rw [hf]; have := no_magic hw.good (by simp) []; rwa [List.append_nil] at this) hr hk
  rw [if_pos rfl, WarcRecord.placed_append] at k2
  obtain ⟨it', rec, cs, c1, c2, c3, c4, c5⟩ := content_at LC k2 hio rfl hl hc (plan := plan) (by rw [hp, WarcRecord.placed_length]) (fun ops h o h' => ⟨ho ops h o h', fun h => by cases h⟩)
  refine ⟨it, it', rec, cs, k1, c1, c2, c3, ?_, c5⟩
  intro calls hcalls
  obtain ⟨s1, s2⟩ := c4 calls hcalls
  refine ⟨s1, fun more hm => ?_⟩
  have e1 : f.origin + len (us.flatMap WarcRecord.bytes) + len w.bytes = f.origin + len ((us ++ [w]).flatMap WarcRecord.bytes) := by
    simp only [len, List.flatMap_append, List.flatMap_cons, List.flatMap_nil, List.append_nil, List.length_append]; omega
  rw [← e1]
  exact s2.yields (.inr rfl) (fun ops h o ho => ⟨hm ops h o ho, fun h => by cases h⟩)

/-- C64 for a file in which each record is a gzip member. -/
theorem C64_gzip_partial (L : LawfulGzip IsMember) (LC : LawfulCodecs IsCoded) {f : FileObj} {io : IterOpts} (hio : Parses io) {us vs : List (Bytes × WarcRecord)} {z : Bytes} {w : WarcRecord}
    (hw : Fit io ((us ++ (z, w) :: vs).map (·.2))) (hz : ∀ x ∈ us ++ (z, w) :: vs, IsMember x.1 x.2.bytes)
    (hf : f.rest = (us ++ (z, w) :: vs).flatMap (·.1)) {bs m : Nat} (hr : ReadsGz f bs m ((us ++ (z, w) :: vs).map (·.1))) {kf : Option Format} (hk : kf ≠ some .arc) (hl : w.Http → 64 ≤ m) {d : Bytes}
    (hc : w.Content IsCoded m d) {plan : List (List UserOp)} (hp : plan.length = us.length) (ho : PlanOk plan) :
    ∃ it it' rec cs, openArchive f io bs kf = .ok it ∧ advance it plan = .ok it' ∧ it'.current = some rec ∧ rec.contentStream = .ok cs ∧
      (∀ calls : List Call, (∀ c ∈ calls, c.nonneg) → Serves m d calls (runCalls cs calls).1 ∧
        ∀ more, PlanOk more → Yields .stopIteration (WarcRecord.placedGz io m (f.origin + len ((us ++ [(z, w)]).flatMap (·.1))) vs) more (iterate { it' with raw := (runCalls cs calls).2.below } more)) ∧
      ∀ n : Int, 0 < n → (readAllBlocks n cs).2.1 = .ok () ∧ (readAllBlocks n cs).1.flatten = d := by
  obtain ⟨it, k1, k2⟩ := gz_ready L hw hz (tl := []) (by rw [hf, List.append_nil]) (by simp) hr hk
  rw [if_pos rfl, WarcRecord.placedGz_append] at k2
  obtain ⟨it', rec, cs, c1, c2, c3, c4, c5⟩ := content_at LC k2 hio rfl hl hc (plan := plan) (by rw [hp, WarcRecord.placedGz_length]) (fun ops h o h' => ⟨ho ops h o h', fun h => by cases h⟩)
  refine ⟨it, it', rec, cs, k1, c1, c2, c3, ?_, c5⟩
  intro calls hcalls
  obtain ⟨s1, s2⟩ := c4 calls hcalls
  refine ⟨s1, fun more hm => ?_⟩
  have e1 : f.origin + len (us.flatMap (·.1)) + len z = f.origin + len ((us ++ [(z, w)]).flatMap (·.1)) := by
    simp only [len, List.flatMap_append, List.flatMap_cons, List.flatMap_nil, List.append_nil, List.length_append]; omega
  rw [← e1]
  exact s2.yields (.inr rfl) (fun ops h o ho => ⟨hm ops h o ho, fun h => by cases h⟩)

/-- The content does not depend on whether and how the file is compressed, nor on what was done before. -/
theorem C64_same (L : LawfulGzip IsMember) (LC : LawfulCodecs IsCoded) {f g : FileObj} {io : IterOpts} (hio : Parses io) {us vs : List (Bytes × WarcRecord)} {z : Bytes} {w : WarcRecord}
    (hw : Fit io ((us ++ (z, w) :: vs).map (·.2))) (hz : ∀ x ∈ us ++ (z, w) :: vs, IsMember x.1 x.2.bytes)
    (hf : f.rest = ((us ++ (z, w) :: vs).map (·.2)).flatMap WarcRecord.bytes) (hg : g.rest = (us ++ (z, w) :: vs).flatMap (·.1)) {bs bs' m m' : Nat} (hr : Reads f bs m)
    (hr' : ReadsGz g bs' m' ((us ++ (z, w) :: vs).map (·.1))) (hl : w.Http → 64 ≤ m ∧ 64 ≤ m') {d : Bytes} (hc : w.Content IsCoded m d) (hc' : w.Content IsCoded m' d)
    {plan plan' : List (List UserOp)} (hp : plan.length = us.length) (hp' : plan'.length = us.length) (ho : PlanOk plan) (ho' : PlanOk plan') {n : Int} (hn : 0 < n) :
    ∃ a b a' b' ra rb ca cb, openArchive f io bs = .ok a ∧ openArchive g io bs' = .ok b ∧ advance a plan = .ok a' ∧ advance b plan' = .ok b' ∧
      a'.current = some ra ∧ b'.current = some rb ∧ ra.contentStream = .ok ca ∧ rb.contentStream = .ok cb ∧
      (readAllBlocks n ca).1.flatten = (readAllBlocks n cb).1.flatten := by
  have e1 : (us ++ (z, w) :: vs).map (·.2) = us.map (·.2) ++ w :: vs.map (·.2) := by simp
  rw [e1] at hf
  obtain ⟨a, a', ra, ca, k1, k2, k3, k4, -, k5⟩ := C64_plain_partial L LC hio (e1 ▸ hw) hf hr (kf := none) (by simp) (fun h => (hl h).1) hc (plan := plan) (by simpa using hp) ho
  obtain ⟨b, b', rb, cb, q1, q2, q3, q4, -, q5⟩ := C64_gzip_partial L LC hio hw hz hg hr' (kf := none) (by simp) (fun h => (hl h).2) hc' hp' ho'
  exact ⟨a, b, a', b', ra, rb, ca, cb, k1, q1, k2, q2, k3, q3, k4, q4, by rw [(k5 n hn).2, (q5 n hn).2]⟩

end

section
open Toy

/-- In the toy library only gzip is available. -/
def toyCoded : DType → Bytes → Bytes → Prop
  | .gzip => IsMember
  | _ => fun _ _ => False

theorem toy_codecs : LawfulCodecs toyCoded := by
  intro k hk
  cases k with
  | gzip => exact ⟨lawful.lawfulCodec⟩
  | deflate => cases hk
  | deflateAlt => cases hk
  | br => cases hk

/-- A response that is chunked and compressed: `hi`, in chunks of 4 and 3 bytes. -/
def exBody : Bytes := utf8Encode (lit "4\r\n") ++ [31, 139, 1, 104] ++ utf8Encode (lit "\r\n3;x\r\n") ++ [1, 105, 0] ++ utf8Encode (lit "\r\n0\r\n\r\n")

/-- A response with this HTTP header and body. -/
def exWith (n : Str) (http : Str) (body : Bytes) : WarcRecord where
  head := utf8Encode (lit "WARC/1.0\r\nWARC-Type: response\r\nWARC-Target-URI: http://x/\r\nContent-Length: " ++ n ++ lit "\r\n\r\n")
  headers := [(lit "WARC-Type", lit "response"), (lit "WARC-Target-URI", lit "http://x/"), (lit "Content-Length", n)]
  block := utf8Encode http ++ body
  sep := utf8Encode (lit "\r\n\r\n")

/-- The content of the record behind one other. -/
def contentOf (w : WarcRecord) : Except PyErr Bytes :=
  match openArchive { content := [exHttp, w].flatMap WarcRecord.bytes } with
  | .error e => .error e
  | .ok it =>
    match advance it [[]] with
    | .error e => .error e
    | .ok it =>
      match it.current with
      | none => .error .attributeError
      | some rec =>
        match rec.contentStream with
        | .error e => .error e
        | .ok cs => (readAllBlocks 3 cs).2.1.map (fun _ => (readAllBlocks 3 cs).1.flatten)

theorem exWith_good {n http body} (hn : GoodHeader (lit "Content-Length", n)) (hl : PyInt n (((exWith n http body).block.length : Nat) : Int))
    (he : ({ statusline := [], protocol := lit "WARC/1.0", headers := (exWith n http body).headers } : StatusAndHeaders).toBytes = (exWith n http body).head)
    (hc : (exWith n http body).value (lit "Content-Length") = some n) (hu : (exWith n http body).value (lit "WARC-Target-URI") ≠ none) : (exWith n http body).Good where
  head := by
    have h := warcHead_toBytes (h := { statusline := [], protocol := lit "WARC/1.0", headers := (exWith n http body).headers })
      { status_trim := rfl
        status_lf := List.not_mem_nil
        headers := by
          intro h hh
          simp only [exWith, List.mem_cons, List.not_mem_nil, or_false] at hh
          rcases hh with rfl | rfl | rfl
          · exact ⟨⟨by decide, by decide, by decide, by decide, by decide⟩, by decide, by decide⟩
          · exact ⟨⟨by decide, by decide, by decide, by decide, by decide⟩, by decide, by decide⟩
          · exact hn
        protocol := .inl ⟨rfl, goodList_warc, (by show lit "WARC/1.0" ∈ Loader.warcParser.statuslist; decide)⟩ }
    rw [he] at h
    exact h
  length := ⟨n, hc, hl⟩
  uri := fun _ => hu
  sep := (by show BlankLines (utf8Encode (lit "\r\n\r\n")); exact ⟨by decide, ⟨utf8Encode (lit "\r\n\r"), by decide⟩, by decide⟩)

def exChunked : WarcRecord := exWith (lit "95") (lit "HTTP/1.1 200 OK\r\nTransfer-Encoding: chunked\r\ncontent-encoding: GZip\r\n\r\n") exBody

theorem exChunked_good : exChunked.Good :=
  exWith_good ⟨⟨by decide, by decide, by decide, by decide, by decide⟩, by decide, by decide⟩ ((parseInt_iff _ _).1 (by decide +kernel)) (by decide +kernel) (by decide +kernel) (by decide +kernel)

theorem exChunked_http : exChunked.Http := by
  refine ⟨lit "http://x/", lit "http://x/", by decide, .plain _ ?_, .inl (by decide), _, rfl, .inl (by decide)⟩
  intro m hm
  have := congrArg List.head? hm
  simp at this
  revert this; decide

theorem exBody_chunked : ChunkedBody exBody (compress (utf8Encode (lit "hi"))) :=
  ChunkedBody.chunk (l := [52]) (d := [31, 139, 1, 104]) (.plain (.one (by decide)) (by decide) (by decide)) (by decide)
    (ChunkedBody.chunk (l := [51, 59, 120]) (d := [1, 105, 0]) (.ext (s := [51]) (x := [120]) (.one (by decide)) (by decide) (by decide) (by decide)) (by decide)
      (ChunkedBody.last (l := [48]) (.plain (.one (by decide)) (by decide) (by decide))))

/-- Its content. -/
theorem exChunked_content : exChunked.Content toyCoded 64 (utf8Encode (lit "hi")) := by
  refine .http { protocol := lit "HTTP/1.1", statusline := lit "200 OK", headers := [(lit "Transfer-Encoding", lit "chunked"), (lit "content-encoding", lit "GZip")] } exBody _ exChunked_http
    ?_ (by decide +kernel) ⟨by decide +kernel, by decide +kernel, by decide +kernel, by decide +kernel, by decide +kernel⟩ (.inl (by decide)) ?_
  · exact .line (by decide +kernel) (by decide +kernel) (.line (by decide +kernel) (by decide +kernel) (.line (by decide +kernel) (by decide +kernel) (.blank (by decide +kernel) (by decide +kernel) (by decide +kernel))))
  · have h1 : firstValue (lit "transfer-encoding") [(lit "Transfer-Encoding", lit "chunked"), (lit "content-encoding", lit "GZip")] = some (lit "chunked") := by decide +kernel
    have h2 : firstValue (lit "content-encoding") [(lit "Transfer-Encoding", lit "chunked"), (lit "content-encoding", lit "GZip")] = some (lit "GZip") := by decide +kernel
    have h3 := BodyData.chunked (IsCoded := toyCoded) (some .gzip) exBody _ (utf8Encode (lit "hi")) [] h1 exBody_chunked (ce := some (lit "GZip")) (.gzip _ (by decide))
      (by have := Decoded.coded (IsCoded := toyCoded) .gzip (compress (utf8Encode (lit "hi"))) (utf8Encode (lit "hi")) [] rfl rfl; rwa [List.append_nil] at this)
    rw [List.append_nil] at h3
    dsimp only
    rw [h2]
    exact h3

/-- The hypotheses of the theorems: a chunked and compressed response behind another one, and a record that is not HTTP. -/
example : LawfulGzip IsMember × PLift (LawfulCodecs toyCoded ∧ Parses {} ∧ Fit {} ([exHttp] ++ exChunked :: [exInfo]) ∧ Reads { content := ([exHttp] ++ exChunked :: [exInfo]).flatMap WarcRecord.bytes } 16384 64 ∧
    exChunked.Content toyCoded 64 (utf8Encode (lit "hi")) ∧ exInfo.Content toyCoded 64 exInfo.block ∧ PlanOk [[.call (.read (some 5)), .size]]) := by
  refine ⟨lawful, ⟨toy_codecs, ⟨rfl, rfl⟩, ⟨?_, fun _ _ => .inl rfl, rfl⟩, ⟨by decide, by simp, .inr ⟨rfl, by decide⟩⟩, exChunked_content, .whole (.inl ?_), ?_⟩⟩
  · intro w hw
    simp only [List.cons_append, List.nil_append, List.mem_cons, List.not_mem_nil, or_false] at hw
    rcases hw with rfl | rfl | rfl
    · exact exHttp_good
    · exact exChunked_good
    · exact exInfo_good
  · rintro ⟨u, v, h, _⟩
    have : exInfo.value (lit "WARC-Target-URI") = none := by decide
    rw [this] at h; cases h
  · intro ops ho o h
    rw [List.mem_singleton.1 ho] at h
    revert o
    decide

/-- What the model does. -/
example : contentOf exChunked = .ok (utf8Encode (lit "hi")) := by decide +kernel

/-- The answer to a HEAD request, with the headers of the other answer: its payload is missing. -/
def exHeadOnly : WarcRecord := exWith (lit "71") (lit "HTTP/1.1 200 OK\r\nTransfer-Encoding: chunked\r\ncontent-encoding: GZip\r\n\r\n") []

/-- Its content is empty. -/
example : exHeadOnly.Content toyCoded 64 [] := by
  refine .http { protocol := lit "HTTP/1.1", statusline := lit "200 OK", headers := [(lit "Transfer-Encoding", lit "chunked"), (lit "content-encoding", lit "GZip")] } [] _ ?_
    ?_ (by decide +kernel) ⟨by decide +kernel, by decide +kernel, by decide +kernel, by decide +kernel, by decide +kernel⟩ (.inl (by decide)) ?_
  · refine ⟨lit "http://x/", lit "http://x/", by decide, .plain _ ?_, .inl (by decide), _, rfl, .inl (by decide)⟩
    intro m hm
    have := congrArg List.head? hm
    simp at this
    revert this; decide
  · exact .line (by decide +kernel) (by decide +kernel) (.line (by decide +kernel) (by decide +kernel) (.line (by decide +kernel) (by decide +kernel) (.blank (by decide +kernel) (by decide +kernel) (by decide +kernel))))
  · have h2 : firstValue (lit "content-encoding") [(lit "Transfer-Encoding", lit "chunked"), (lit "content-encoding", lit "GZip")] = some (lit "GZip") := by decide +kernel
    dsimp only
    rw [h2]
    exact .empty (some .gzip) (.gzip _ (by decide))

example : contentOf exHeadOnly = .ok [] := by decide +kernel

/-! ## What fails -/

def exCapital : WarcRecord := exWith (lit "59") (lit "HTTP/1.1 200 OK\r\nTransfer-Encoding: Chunked\r\n\r\n") (utf8Encode (lit "2\r\nhi\r\n0\r\n\r\n"))

/-- The name of the transfer coding is compared with `chunked` as it is, though it is case-insensitive (RFC 9112): with `Chunked` the
chunks are delivered with their sizes. -/
theorem C64_capital : PyUni.lower (lit "Chunked") = lit "chunked" ∧ ChunkedBody (utf8Encode (lit "2\r\nhi\r\n0\r\n\r\n")) (utf8Encode (lit "hi")) ∧
    contentOf exCapital = .ok (utf8Encode (lit "2\r\nhi\r\n0\r\n\r\n")) := by
  refine ⟨by decide, ?_, by decide +kernel⟩
  exact ChunkedBody.chunk (l := [50]) (d := [104, 105]) (.plain (.one (by decide)) (by decide) (by decide)) (by decide)
    (ChunkedBody.last (l := [48]) (.plain (.one (by decide)) (by decide) (by decide)))

def exTwo : WarcRecord := exWith (lit "57") (lit "HTTP/1.1 200 OK\r\nContent-Encoding: gzip\r\n\r\n") (compress (utf8Encode (lit "hi")) ++ compress (utf8Encode (lit "ho")))

/-- A gzip payload of two members, which is valid: only the first one is delivered. -/
theorem C64_two_members : toyCoded .gzip (compress (utf8Encode (lit "hi"))) (utf8Encode (lit "hi")) ∧ toyCoded .gzip (compress (utf8Encode (lit "ho"))) (utf8Encode (lit "ho")) ∧
    contentOf exTwo = .ok (utf8Encode (lit "hi")) := ⟨rfl, rfl, by decide +kernel⟩

end
end Warcio.Props
