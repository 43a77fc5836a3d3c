import Verif.Props.Canonical
import Verif.Props.WriteCheck

/-!
# C102: recompressing what the writer has written

Partial as the other theorems of C102; the conditions on the records are those of C43.
-/

set_option linter.unusedSectionVars false

namespace Warcio.Props

open Warcio Writer Builder ArchiveIter Loader StatusAndHeaders Recompressor

section
variable [PyUni] {f : Bytes → Bytes} {r : OutRecord FileObj} {hb d : Bytes} {m : Nat}

theorem written_has_block (h : firstValue (lit "WARC-Block-Digest") r.recHeaders.headers ≠ some []) : (fileRecord f hb d r).Has (lit "WARC-Block-Digest") := by
  have hB := (written_digests f r hb d (.inl rfl)).trans (block_digests f r hb d)
  show ∃ c t, firstValue _ (writtenHeaders f r hb d) = _
  rw [firstValue_eq, findHeader_filter, hB]
  cases hv : findHeader (lit "WARC-Block-Digest") (baseHeaders r) with
  | none =>
    rw [filter_nil_iff.2 hv]
    obtain ⟨t, ht⟩ := sha1Text_cons f (hb ++ d)
    exact ⟨'s', t, by rw [← ht]; rfl⟩
  | some v =>
    cases v with
    | nil =>
      rcases base_first r (lit "WARC-Block-Digest") with h' | h'
      · rw [h'] at hv; cases hv
      · rw [h'] at hv; rw [firstValue_eq] at h; exact absurd hv h
    | cons a t =>
      rw [show Loader.truthy (some (a :: t)) = true from rfl, if_pos rfl, List.append_nil, ← findHeader_filter, hv]
      exact ⟨a, t, rfl⟩

theorem written_has_payload (h : firstValue (lit "WARC-Payload-Digest") r.recHeaders.headers ≠ some []) :
    (fileRecord f hb d r).Has (lit "WARC-Payload-Digest") ∨ r.recType = some (lit "warcinfo") ∨ r.recType = some (lit "revisit") := by
  by_cases h1 : r.recType = some (lit "warcinfo")
  · exact .inr (.inl h1)
  by_cases h2 : r.recType = some (lit "revisit")
  · exact .inr (.inr h2)
  left
  have h1' : (r.recType == some (lit "warcinfo")) = false := by simpa using h1
  have h2' : (r.recType == some (lit "revisit")) = false := by simpa using h2
  have hB := (written_digests f r hb d (.inr rfl)).trans (payload_digests f r hb d)
  show ∃ c t, firstValue _ (writtenHeaders f r hb d) = _
  rw [firstValue_eq, findHeader_filter, hB]
  cases hv : findHeader (lit "WARC-Payload-Digest") (baseHeaders r) with
  | none =>
    rw [filter_nil_iff.2 hv]
    obtain ⟨t, ht⟩ := sha1Text_cons f d
    refine ⟨'s', t, ?_⟩
    rw [← ht]
    simp only [Builder.noPayloadDigest, h1', h2', Loader.truthy, Bool.or_false, List.nil_append]
    rfl
  | some v =>
    cases v with
    | nil =>
      rcases base_first r (lit "WARC-Payload-Digest") with h' | h'
      · rw [h'] at hv; cases hv
      · rw [h'] at hv; rw [firstValue_eq] at h; exact absurd hv h
    | cons a t =>
      rw [show Loader.truthy (some (a :: t)) = true from rfl, Bool.true_or, if_pos rfl, List.append_nil, ← findHeader_filter, hv]
      exact ⟨a, t, rfl⟩

/-- What is written is in normal form. -/
theorem written_normal (hr : Regular r) (h1 : firstValue (lit "WARC-Block-Digest") r.recHeaders.headers ≠ some []) (h2 : firstValue (lit "WARC-Payload-Digest") r.recHeaders.headers ≠ some []) :
    (fileRecord f hb d r).Normal where
  head := by
    have := versionLine_toBytes (hr.wellFormed (f := f) (hb := hb) (d := d)) []
    rw [List.append_nil, toBytes_headText (show (⟨r.recHeaders.statusline, writtenHeaders f r hb d, r.recHeaders.protocol, 0, none⟩ : StatusAndHeaders).protocol ≠ [] from hr.protocol_ne)] at this
    exact ⟨_, _, this, rfl⟩
  length := by
    show firstValue _ _ = _
    rw [show (fileRecord f hb d r).headers = writtenHeaders f r hb d from rfl, first_last (written_one_length f r hb d hr.oneLength)]
    exact written_length f r hb d
  payloadDigest := by
    have e : (fileRecord f hb d r).value (lit "WARC-Type") = r.recType := by rw [hr.recType]; exact written_recType
    rw [e]
    exact written_has_payload h2
  blockDigest := written_has_block h1
  sep := rfl

/-- What is written can be rewritten. -/
theorem written_rewritable (hr : Regular r) {hb' p : Bytes} (hs : SplitsOf (HttpRecord r.recType (firstValue (lit "WARC-Target-URI") r.recHeaders.headers)) (blockOf r hb d) m hb' p)
    (hv : r.recType = some (lit "revisit") → p = []) : (fileRecord f hb d r).Rewritable m p where
  good := hr.good
  headers := good_written f hb d hr.headers hr.ctype
  oneLength := written_one_length f r hb d hr.oneLength
  oneType := written_one_type hr.oneType
  tidy u hu := hr.tidy u (by rw [← written_uri (f := f) (hb := hb) (d := d)]; exact hu)
  splits := by
    refine ⟨hb', ?_⟩
    show SplitsOf (fileRecord f hb d r).Http (blockOf r hb d) m hb' p
    rw [propext hr.http_iff]
    exact hs
  revisit h := hv (by rw [hr.recType, ← written_recType (f := f) (hb := hb) (d := d)]; exact h)

/-- A record whose block can be told apart when it is read: it is no HTTP message for readers, or its HTTP headers come first in it (`SplitsOf`); a revisit record has no payload.
Neither of its digests is the empty text. -/
structure Separable (m : Nat) (r : OutRecord FileObj) (hb d : Bytes) : Prop where
  splits : ∃ hb' p, SplitsOf (HttpRecord r.recType (firstValue (lit "WARC-Target-URI") r.recHeaders.headers)) (blockOf r hb d) m hb' p ∧ (r.recType = some (lit "revisit") → p = [])
  block : firstValue (lit "WARC-Block-Digest") r.recHeaders.headers ≠ some []
  payload : firstValue (lit "WARC-Payload-Digest") r.recHeaders.headers ≠ some []

theorem written_records (f : Bytes → Bytes) : ∀ {rs : List (OutRecord FileObj × Bytes × Bytes)}, (∀ x ∈ rs, Regular x.1) → (∀ x ∈ rs, Separable m x.1 x.2.1 x.2.2) →
    ∃ xs : List (WarcRecord × Bytes), xs.map (·.1) = rs.map (fun x => fileRecord f x.2.1 x.2.2 x.1) ∧ (∀ x ∈ xs, x.1.Rewritable m x.2) ∧ ∀ x ∈ xs, x.1.Normal
  | [], _, _ => ⟨[], rfl, by simp, by simp⟩
  | x :: rs, hr, hs => by
    obtain ⟨xs, h1, h2, h3⟩ := written_records f (rs := rs) (fun y hy => hr y (by simp [hy])) (fun y hy => hs y (by simp [hy]))
    have hx := hr x (by simp)
    obtain ⟨⟨hb', p, k1, k2⟩, k3, k4⟩ := hs x (by simp)
    refine ⟨(fileRecord f x.2.1 x.2.2 x.1, p) :: xs, by simp [h1], fun y hy => ?_, fun y hy => ?_⟩
    · rcases List.mem_cons.1 hy with rfl | hy
      · exact written_rewritable hx k1 k2
      · exact h2 y hy
    · rcases List.mem_cons.1 hy with rfl | hy
      · exact written_normal hx k3 k4
      · exact h3 y hy

variable [Hashlib] [Zlib] [Deflater] {IsMember : Bytes → Bytes → Prop}

theorem written_pressed (D : LawfulDeflater IsMember) (hu : Deflater.Uniform) {f : Bytes → Bytes} (H : Hashlib.hash (lit "sha1") = some f) {c : BuilderCfg} (hg : c.gzip = true)
    {rs : List (OutRecord FileObj × Bytes × Bytes)} (hw : ∀ x ∈ rs, Writable c.filter x.1 x.2.1 x.2.2) {xs : List (WarcRecord × Bytes)} (hx : xs.map (·.1) = rs.map (fun x => fileRecord f x.2.1 x.2.2 x.1)) :
    writeAll c (rs.map (·.1)) {} = (.ok (), ({} : OutFile).extended (xs.map (fun x => pressed x.1.bytes)).flatten) := by
  obtain ⟨ms, m1, m2, m3⟩ := writeAll_gz (ownDeflater D) H hg rs hw (o := {}) rfl
  rw [m3, all_pressed hu (xs := xs) (out := ms) (by rw [m1, hx]) m2]
  rfl

/-- C102 and the writer: a file that was written with compression is left as it is by `recompress`, byte by byte. -/
theorem C102_written_partial (L : LawfulGzip IsMember) (D : LawfulDeflater IsMember) (hu : Deflater.Uniform) {f : Bytes → Bytes} (H : Hashlib.hash (lit "sha1") = some f)
    {c : BuilderCfg} (hg : c.gzip = true) {m : Nat} {rs : List (OutRecord FileObj × Bytes × Bytes)} (hne : rs ≠ []) (hw : ∀ x ∈ rs, Writable c.filter x.1 x.2.1 x.2.2) (hr : ∀ x ∈ rs, Regular x.1)
    (hs : ∀ x ∈ rs, Separable m x.1 x.2.1 x.2.2) {k : BuilderCfg} (hkf : k.filter = some) (hkg : k.gzip = true) :
    ∃ bs : List Bytes, bs.length = rs.length ∧ writeAll c (rs.map (·.1)) {} = (.ok (), ({} : OutFile).extended bs.flatten) ∧
      ∀ {g : FileObj}, g.rest = bs.flatten → ReadsGz g 16384 m bs → ∀ ids more, recompress k ids g more = (.noErrors rs.length, ({} : OutFile).extended bs.flatten) := by
  obtain ⟨xs, x1, x2, x3⟩ := written_records f hr hs
  have hl : xs.length = rs.length := by simpa using congrArg List.length x1
  have hz : ∀ ys : List (WarcRecord × Bytes), Each (fun x z => ∃ ws : List Bytes, ws.flatten = x.1.bytes ∧ z = Deflater.outFrom [] ws ++ Deflater.flush ws) ys (ys.map (fun x => pressed x.1.bytes)) := by
    intro ys
    induction ys with
    | nil => exact .nil
    | cons y ys ih => exact .cons ⟨[y.1.bytes], by simp, rfl⟩ ih
  refine ⟨xs.map (fun x => pressed x.1.bytes), by simpa using hl, written_pressed D hu H hg hw x1, ?_⟩
  intro g h1 h2 ids more
  rw [C102_untouched_partial L D hu H hkf hkg (by rintro rfl; exact hne (List.length_eq_zero_iff.1 hl.symm)) x2 x3 (hz xs) h1 h2 ids more, h1, hl]

/-- C102 and the writer: it is the same, byte by byte, whether records are written with compression, or are written without and recompressed later. -/
theorem C102_later_partial (L : LawfulGzip IsMember) (D : LawfulDeflater IsMember) (hu : Deflater.Uniform) {f : Bytes → Bytes} (H : Hashlib.hash (lit "sha1") = some f)
    {c c' : BuilderCfg} (hg : c.gzip = false) (hg' : c'.gzip = true) {m : Nat} {rs : List (OutRecord FileObj × Bytes × Bytes)} (hw : ∀ x ∈ rs, Writable c.filter x.1 x.2.1 x.2.2)
    (hw' : ∀ x ∈ rs, Writable c'.filter x.1 x.2.1 x.2.2) (hr : ∀ x ∈ rs, Regular x.1) (hs : ∀ x ∈ rs, Separable m x.1 x.2.1 x.2.2) {k : BuilderCfg} (hkf : k.filter = some) (hkg : k.gzip = true) :
    ∃ data packed : Bytes, writeAll c (rs.map (·.1)) {} = (.ok (), ({} : OutFile).extended data) ∧ writeAll c' (rs.map (·.1)) {} = (.ok (), ({} : OutFile).extended packed) ∧
      ∀ {g : FileObj}, g.rest = data → Reads g 16384 m → ∀ ids more, recompress k ids g more = (.noErrors rs.length, ({} : OutFile).extended packed) := by
  obtain ⟨xs, x1, x2, x3⟩ := written_records f hr hs
  have hl : xs.length = rs.length := by simpa using congrArg List.length x1
  refine ⟨_, _, writeAll_plain H hg rs hw (o := {}) rfl, written_pressed D hu H hg' hw' x1, ?_⟩
  intro g h1 h2 ids more
  have e : rs.flatMap (fun x => (fileRecord f x.2.1 x.2.2 x.1).bytes) = xs.flatMap (·.1.bytes) := by
    rw [← List.flatMap_map (f := fun x : OutRecord FileObj × Bytes × Bytes => fileRecord f x.2.1 x.2.2 x.1) (g := WarcRecord.bytes), ← x1, List.flatMap_map]
  obtain ⟨out, o1, o2⟩ := C60_plain L (ownDeflater D) H hkf hkg x2 (by rw [h1]; exact e) h2 ids more
  obtain ⟨k1, k2⟩ := o1.normal (fun x hx => ⟨x3 x hx, (x2 x hx).oneLength⟩)
  rw [o2, all_pressed hu k1 k2, hl]
  rfl

end

section
open Toy

/-- The hypotheses of `C102_written_partial` and `C102_later_partial` are met by a response. -/
example : Deflater.Uniform ∧ Writable some wResponse (utf8Encode (lit "HTTP/1.0 200 OK\r\nA: b\r\n\r\n")) [97, 98, 99] ∧ Regular wResponse ∧
    Separable 17 wResponse (utf8Encode (lit "HTTP/1.0 200 OK\r\nA: b\r\n\r\n")) [97, 98, 99] := by
  refine ⟨toy_uniform, ⟨rfl, w_httpPart, .payload 3 (by decide) rfl (by decide) (by decide), by decide⟩, w_regular, ⟨utf8Encode (headText wHttp.protocol wHttp.statusline wHttp.headers), [97, 98, 99], ?_, fun h => absurd h (by decide)⟩, by decide, by decide⟩
  refine .http wHttp [97, 98, 99] ⟨.inl rfl, lit "http://a/", by decide, .inl (by decide)⟩ ⟨by decide, by decide, ?_, .inl (by decide)⟩ (by decide) (by decide +kernel) ?_
  · intro x hx
    rw [List.mem_singleton.1 hx]
    exact ⟨⟨by decide, by decide, by decide, by decide, by decide⟩, by decide, by decide⟩
  · exact .line (by decide +kernel) (by decide +kernel) (.line (by decide +kernel) (by decide +kernel) (.blank (by decide +kernel) (by decide +kernel) (by decide +kernel)))

/-- Computed: compressed at once or later, it is the same file, and stays so. -/
example : let now := (writeAll { gzip := true } [wResponse] {}).2.content
    let later := (recompress {} (fun _ => []) { content := (writeAll { gzip := false } [wResponse] {}).2.content } []).2.content
    now = later ∧ (recompress {} (fun _ => []) { content := now } []).2.content = now ∧ now ≠ [] := by
  decide +kernel

end
end Warcio.Props
