import Verif.Props.Recompress
import Verif.Props.Content

/-!
# Property C59: `warcio extract`

The record at the given offset is `w`; before it there may be any bytes.  Its parts are those of
`Verif/Spec/Rewrite.lean`: `Splits`; its content is that of C64.
-/

set_option linter.unusedSectionVars false

namespace Warcio.Props

open Warcio ArchiveIter Extractor Writer Builder

section
variable [PyUni] [Hashlib] [Zlib] {IsMember : Bytes → Bytes → Prop} {IsCoded : DType → Bytes → Bytes → Prop}

/-- The bytes that are to be printed: the version and the headers, the HTTP headers, the payload; only
the headers; or only the content of the payload. -/
inductive Printed (IsCoded : DType → Bytes → Bytes → Prop) (w : WarcRecord) (m : Nat) : Bool → Bool → Bytes → Prop
  | all (p s : Str) (payload : Bytes) : w.Rewritable m payload → VersionLine w.head p s → Printed IsCoded w m false false (utf8Encode (headText p s w.headers) ++ w.block)
  | headers (p s : Str) (hb payload : Bytes) : w.Rewritable m payload → VersionLine w.head p s → w.Splits m hb payload → Printed IsCoded w m false true (utf8Encode (headText p s w.headers) ++ hb)
  | payload (headersOnly : Bool) (data : Bytes) : (w.Http → 64 ≤ m) → w.Content IsCoded m data → Printed IsCoded w m true headersOnly data

variable {w : WarcRecord} {m : Nat} {io : IterOpts} {rec : Record Unit} {left payload : Bytes}

/-- The parts of a record with this block. -/
theorem split_like {http : Prop} {block hb : Bytes} (hsp : SplitsOf http block m hb payload) (hb0 : ¬ http ∨ block = [] → left = block ∧ rec.httpHeaders = none)
    (hh : http → HeadWithin m block → lineText (takeLine block) ≠ [] → ∃ h, HttpHead block h left ∧ (h.statusline ≠ [] ∨ h.headers ≠ [] → rec.httpHeaders = some h)) :
    left = payload ∧ block = hb ++ payload ∧
      ((rec.httpHeaders = none ∧ hb = []) ∨ ∃ h, rec.httpHeaders = some h ∧ h.truthy = true ∧ h.toBytes = hb ∧ HttpHead block h left) := by
  cases hsp with
  | whole h0 =>
    obtain ⟨k1, k3⟩ := hb0 h0
    exact ⟨k1, rfl, .inl ⟨k3, rfl⟩⟩
  | http h _ h1 h2 h3 h4 h5 =>
    have hbb := (toBytes_headText h2.protocol.1)
    have key := httpHead_toBytes h2 payload
    rw [hbb, ← h4] at key
    obtain ⟨y, k1, k2⟩ := hh h1 h5 key.first
    obtain ⟨d1, d2, d3, d4⟩ := k1.det key
    have k3 := k2 (by rw [d2, d3]; exact h2.truthy)
    refine ⟨d4, h4, .inr ⟨y, k3, ?_, ?_, k1⟩⟩
    · unfold StatusAndHeaders.truthy
      rcases h2.truthy with hne | hne
      · rw [← d2] at hne
        cases hs : y.statusline <;> simp_all
      · rw [← d3] at hne
        cases hs : y.headers <;> simp_all
    · have hp : y.protocol ≠ [] := by rw [d1]; exact h2.protocol.1
      rw [toBytes_headText hp, d1, d2, d3]

/-- The parts of a record that was read. -/
theorem read_split (hw : w.Rewritable m payload) (hs : w.Shows io m rec left) (hn : io.noRecordParse = false) (he : io.ensureHttpHeaders = false) :
    ∃ hb, w.Splits m hb payload ∧ left = payload ∧ w.block = hb ++ payload ∧
      ((rec.httpHeaders = none ∧ hb = []) ∨ ∃ h, rec.httpHeaders = some h ∧ h.truthy = true ∧ h.toBytes = hb ∧ HttpHead w.block h left) := by
  obtain ⟨hb, hsp⟩ := hw.splits
  exact ⟨hb, hsp, split_like hsp (fun h0 => ⟨(hs.block (.inr h0)).1, (hs.block (.inr h0)).2.2 he⟩) (fun g1 g2 g3 => by
    obtain ⟨y, k1, k2⟩ := hs.http hn g1 g2 g3
    exact ⟨y, k1, fun h => (k2 h).1⟩)⟩

theorem Splits.det {hb hb' payload payload' : Bytes} (h : w.Splits m hb payload) (h' : w.Splits m hb' payload') : hb = hb' ∧ payload = payload' := by
  cases h with
  | whole h0 =>
    cases h' with
    | whole h1 => exact ⟨rfl, rfl⟩
    | http x _ h1 h2 h3 h4 h5 =>
      rcases h0 with h0 | h0
      · exact absurd h1 h0
      · exfalso
        have key := httpHead_toBytes h2 payload'
        rw [toBytes_headText h2.protocol.1, ← h4, h0] at key
        exact key.first rfl
  | http x _ h1 h2 h3 h4 h5 =>
    cases h' with
    | whole h0 =>
      rcases h0 with h0 | h0
      · exact absurd h1 h0
      · exfalso
        have key := httpHead_toBytes h2 payload
        rw [toBytes_headText h2.protocol.1, ← h4, h0] at key
        exact key.first rfl
    | http y _ g1 g2 g3 g4 g5 =>
      have key := httpHead_toBytes h2 payload
      rw [toBytes_headText h2.protocol.1, ← h4] at key
      have key' := httpHead_toBytes g2 payload'
      rw [toBytes_headText g2.protocol.1, ← g4] at key'
      obtain ⟨d1, d2, d3, d4⟩ := key.det key'
      exact ⟨by rw [d1, d2, d3], d4⟩

theorem _root_.Warcio.WarcRecord.Splits.block {hb : Bytes} (h : w.Splits m hb payload) : w.block = hb ++ payload := by
  cases h with
  | whole h0 => rfl
  | http x _ h1 h2 h3 h4 h5 => exact h4

/-- Printing the current record. -/
theorem output_now {σ : Type} [PyStream σ] (LC : LawfulCodecs IsCoded) {multi : Bool} {last : Option PyErr} {it : ArchiveIter σ} {e : Expected} {es : List Expected} (hn : Now multi last it e left es)
    (hs : w.Shows io m rec left) (h1 : io.noRecordParse = false) (h2 : io.ensureHttpHeaders = false) (hm : e.line = m) {po ho : Bool}
    {out : Bytes} (hp : Printed IsCoded w m po ho out) : output (withRaw rec it.raw) po ho = (.ok (), out) := by
  have hproto : rec.recHeaders.protocol ≠ [] := by
    obtain ⟨q1, -⟩ := hs.version
    intro hc; rw [hc] at q1; revert q1; decide
  have hhead : ∀ payload, w.Rewritable m payload → ∀ p s, VersionLine w.head p s → rec.recHeaders.toBytes = utf8Encode (headText p s w.headers) := by
    intro payload hw p s hv
    obtain ⟨e1, e2⟩ := WarcRecord.versionLine_unique hs.version hv
    rw [toBytes_headText hproto, hs.headers hw.tidy, e1, e2]
  have hout : ∀ payload, w.Rewritable m payload → ∃ hb, w.Splits m hb payload ∧ left = payload ∧ w.block = hb ++ payload ∧ output (withRaw rec it.raw) false ho = if ho then (.ok (), rec.recHeaders.toBytes ++ hb) else
      ((readAllBlocks readSize it.raw).2.1, (rec.recHeaders.toBytes ++ hb) ++ (readAllBlocks readSize it.raw).1.flatten) := by
    intro payload hw
    obtain ⟨hb, k1, k2, k3, k4⟩ := read_split hw hs h1 h2
    refine ⟨hb, k1, k2, k3, ?_⟩
    have hh : (withRaw rec it.raw).httpHeaders = rec.httpHeaders := rfl
    have hr : (withRaw rec it.raw).recHeaders = rec.recHeaders := rfl
    have hw : (withRaw rec it.raw).rawStream = it.raw := rfl
    unfold output
    rw [if_neg (by decide), hh, hr, hw]
    rcases k4 with ⟨q1, q2⟩ | ⟨h, q1, q2, q3, -⟩
    · rw [q1, q2]
    · rw [q1]; dsimp only; rw [if_pos q2, q3]
  cases hp with
  | all p s payload hw hv =>
    obtain ⟨hb, k1, rfl, k3, k4⟩ := hout payload hw
    obtain ⟨bufs, raw, r1, r2, -⟩ := hn.readAll (n := readSize) (by decide)
    rw [k4, if_neg (by decide), r1]
    dsimp only
    rw [hhead left hw p s hv, r2, k3, List.append_assoc]
  | headers p s hb' payload' hw hv hsp =>
    obtain ⟨hb, k1, rfl, k3, k4⟩ := hout payload' hw
    obtain ⟨rfl, -⟩ := Splits.det k1 hsp
    rw [k4, if_pos rfl, hhead left hw p s hv]
  | payload ho data hl hc =>
    obtain ⟨cs, W, c1, c2, c3, c4⟩ := content_now LC hn hs h1 h2 (fun h => by rw [hm]; exact hl h) hc
    have G := ContentStream.gets (rawView_gets (multi := multi) (last := last) (it := it) (e := e) (es := es)) c2
    obtain ⟨bufs, s', b1, b2, -⟩ := G.readBlocks (n := readSize) (by decide) (PyStream.bound cs + 2) c4 (by have := G.bound c4; omega)
    have : readAllBlocks readSize cs = (bufs, .ok (), s') := b1
    unfold output
    rw [if_pos rfl, c1]
    dsimp only
    rw [this]
    dsimp only
    rw [b2]

/-- Getting to the record. -/
theorem extract_ready (LC : LawfulCodecs IsCoded) {f : FileObj} (hs : f.seekable = true) {off : Nat} {multi : Bool} {last : Option PyErr} {it : ArchiveIter Source} {e : Expected} {es : List Expected}
    (ho : openArchive { f with pos := off } = .ok it) (hr : Ready multi last it (e :: es)) (he : ∀ rec left, e.shows rec left → w.Shows {} m rec left) (hm : e.line = m) {po hon : Bool}
    {out : Bytes} (hp : Printed IsCoded w m po hon out) : extract f off po hon = (.ok (), out) := by
  obtain ⟨it', rec, left, k1, k2, k3, k4⟩ := hr.record
  replace k3 := he _ _ k3
  have hcur : it'.current = some (withRaw rec it'.raw) := by rw [current_eq, k2]; rfl
  unfold extract
  rw [if_neg (by omega)]
  have : f.seek ((off : Int)).toNat = .ok { f with pos := off } := by
    unfold FileObj.seek
    rw [if_pos hs]
    rfl
  rw [this]
  dsimp only
  rw [ho]
  dsimp only
  rw [k1]
  dsimp only
  rw [hcur]
  exact output_now LC k4 k3 rfl rfl hm hp

/-- C59 for a file that is not compressed: whatever stands before the record (other records or any
bytes) and whatever records follow it, exactly the record is printed, or the parts of it that are
asked for.  In part: headers are proved to be printed if they are regular, see `C59_rewrites_headers`. -/
theorem C59_plain_partial (L : LawfulGzip IsMember) (LC : LawfulCodecs IsCoded) {f : FileObj} (hs : f.seekable = true) {before : Bytes} {ws : List WarcRecord}
    (hws : ∀ x ∈ w :: ws, x.Good) (hf : f.content = before ++ (w :: ws).flatMap WarcRecord.bytes) (hr : Reads f 16384 m)
    {payloadOnly headersOnly : Bool} {out : Bytes} (hp : Printed IsCoded w m payloadOnly headersOnly out) :
    extract f before.length payloadOnly headersOnly = (.ok (), out) := by
  have hfit : Fit {} (w :: ws) := ⟨hws, fun _ _ => .inl rfl, rfl⟩
  have hrest : ({ f with pos := before.length } : FileObj).rest = (w :: ws).flatMap WarcRecord.bytes ++ [] := by
    simp [FileObj.rest, hf]
  obtain ⟨it, k1, k2⟩ := plain_ready L hfit hrest (.inl rfl) (fun _ => by rw [hrest]; exact two_le hfit.good (by simp) _)
    (by rw [hrest]; exact no_magic hfit.good (by simp) _) (bs := 16384) (m := m) ⟨hr.block, hr.first, hr.lines⟩ (kf := none) (by simp)
  exact extract_ready LC hs k1 k2 (fun _ _ h => h) rfl hp

/-- C59 for a file in which the record is a gzip member: whatever stands before and behind it. -/
theorem C59_gzip_partial (L : LawfulGzip IsMember) (LC : LawfulCodecs IsCoded) {f : FileObj} (hs : f.seekable = true) {before z rest : Bytes}
    (hw : w.Good) (hz : IsMember z w.bytes) (hf : f.content = before ++ (z ++ rest)) (hr : ReadsGz f 16384 m [z])
    {payloadOnly headersOnly : Bool} {out : Bytes} (hp : Printed IsCoded w m payloadOnly headersOnly out) :
    extract f before.length payloadOnly headersOnly = (.ok (), out) := by
  have hfit : Fit {} ([(z, w)].map (·.2)) := ⟨by
    intro x hx
    rw [List.mem_singleton.1 hx]
    exact hw, fun _ _ => .inl rfl, rfl⟩
  obtain ⟨it, k1, k2⟩ := gz_ready L hfit (by intro x hx; rw [List.mem_singleton.1 hx]; exact hz) (f := { f with pos := before.length }) (tl := rest)
    (by simp [FileObj.rest, hf]) (by simp) (bs := 16384) (m := m) ⟨hr.block, hr.lines⟩ (kf := none) (by simp)
  exact extract_ready LC hs k1 k2 (fun _ _ h => h) rfl hp

/-- C59 for a gzip member with several records: the first one is printed. -/
theorem C59_one_member_partial (L : LawfulGzip IsMember) (LC : LawfulCodecs IsCoded) {f : FileObj} (hs : f.seekable = true) {before z : Bytes} {w' : WarcRecord} {ws : List WarcRecord}
    (hws : ∀ x ∈ w :: w' :: ws, x.Good) (hz : IsMember z ((w :: w' :: ws).flatMap WarcRecord.bytes)) (hf : f.content = before ++ z) (hr : ReadsGz f 16384 m [z])
    {payloadOnly headersOnly : Bool} {out : Bytes} (hp : Printed IsCoded w m payloadOnly headersOnly out) :
    extract f before.length payloadOnly headersOnly = (.ok (), out) := by
  have hrest : ({ f with pos := before.length } : FileObj).rest = z := by simp [FileObj.rest, hf]
  obtain ⟨it, k1, k2⟩ := multi_ready L (io := {}) ⟨hws, fun _ _ => .inl rfl, rfl⟩ (f := { f with pos := before.length }) (by rw [hrest]; exact hz) (bs := 16384) (m := m)
    ⟨hr.block, by rw [hrest]; exact hr.lines⟩ (kf := none) (by simp)
  exact extract_ready LC hs k1 k2 (fun _ _ h => h) rfl hp

/-- If the header block is as `to_bytes` writes it, the bytes of the record in the file are printed as they are. -/
theorem C59_verbatim (L : LawfulGzip IsMember) {f : FileObj} (hs : f.seekable = true) {before : Bytes} {ws : List WarcRecord}
    (hws : ∀ x ∈ w :: ws, x.Good) (hf : f.content = before ++ (w :: ws).flatMap WarcRecord.bytes) (hr : Reads f 16384 m)
    (hw : w.Rewritable m payload) {p s : Str} (hv : VersionLine w.head p s) (he : w.head = utf8Encode (headText p s w.headers)) (LC : LawfulCodecs IsCoded) :
    extract f before.length false false = (.ok (), ((f.content.drop before.length).take (w.head ++ w.block).length)) := by
  rw [C59_plain_partial L LC hs hws hf hr (.all p s payload hw hv), ← he, hf, List.drop_left]
  simp only [List.flatMap_cons, WarcRecord.bytes]
  rw [List.append_assoc (w.head ++ w.block), List.take_left]

end

section
open Toy

/-- The hypotheses of `C59_plain_partial`, with bytes before, for all that can be asked for. -/
example : LawfulCodecs toyCoded ∧ (∀ x ∈ [exHttp, exInfo], x.Good) ∧ Reads { content := utf8Encode (lit "??") ++ [exHttp, exInfo].flatMap WarcRecord.bytes } 16384 17 ∧
    Printed toyCoded exHttp 17 false false (exHttp.head ++ exHttp.block) ∧ Printed toyCoded exHttp 17 false true (exHttp.head ++ utf8Encode (lit "HTTP/1.1 200 OK\r\nA: b\r\n\r\n")) ∧
    Printed toyCoded exChunked 64 true false (utf8Encode (lit "hi")) ∧ exHttp.head = utf8Encode (headText (lit "WARC/1.0") [] exHttp.headers) := by
  have hv : VersionLine exHttp.head (lit "WARC/1.0") [] := ⟨by decide, by decide +kernel, by decide +kernel⟩
  have he : utf8Encode (headText (lit "WARC/1.0") [] exHttp.headers) = exHttp.head := by decide +kernel
  refine ⟨toy_codecs, ex_fit.good, ⟨by decide, by simp, .inr ⟨rfl, by decide⟩⟩, ?_, ?_, .payload false _ (fun _ => by omega) exChunked_content, he.symm⟩
  · rw [← he]; exact .all _ _ _ exHttp_rewritable hv
  · obtain ⟨hb, hsp⟩ := exHttp_rewritable.splits
    have : hb = utf8Encode (lit "HTTP/1.1 200 OK\r\nA: b\r\n\r\n") := by
      have h1 := hsp.block
      have h2 : exHttp.block = utf8Encode (lit "HTTP/1.1 200 OK\r\nA: b\r\n\r\n") ++ utf8Encode (lit "xy") := by decide
      exact List.append_cancel_right (h1.symm.trans h2)
    rw [← he, ← this]
    exact .headers _ _ _ _ exHttp_rewritable hv hsp

/-- What the model does. -/
example : extract { content := utf8Encode (lit "??") ++ [exHttp, exChunked, exInfo].flatMap WarcRecord.bytes } 2 false true = (.ok (), utf8Encode (lit "WARC/1.0\r\nWARC-Type: response\r\nWARC-Target-URI: http://x/\r\nContent-Length: 27\r\n\r\nHTTP/1.1 200 OK\r\nA: b\r\n\r\n")) ∧
    extract { content := utf8Encode (lit "??") ++ [exHttp, exChunked, exInfo].flatMap WarcRecord.bytes } 114 true false = (.ok (), utf8Encode (lit "hi")) := by
  decide +kernel

/-! ## What fails -/

/-- A header without a blank behind the colon. -/
def exTight : WarcRecord := exWith (lit "25") (lit "HTTP/1.1 200 OK\r\nA:b\r\n\r\n") (utf8Encode (lit "x"))

/-- The headers are printed as they are parsed, not as they are in the record: here the block that is printed has one byte more than the block in the file, and than the
`Content-Length` that is printed. -/
theorem C59_rewrites_headers : extract { content := exTight.bytes } 0 false false = (.ok (), exTight.head ++ utf8Encode (lit "HTTP/1.1 200 OK\r\nA: b\r\n\r\nx")) ∧
    exTight.block = utf8Encode (lit "HTTP/1.1 200 OK\r\nA:b\r\n\r\nx") ∧ exTight.value (lit "Content-Length") = some (lit "25") := by
  decide +kernel

end
end Warcio.Props
