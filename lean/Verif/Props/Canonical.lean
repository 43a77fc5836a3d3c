import Verif.Props.Again

/-!
# C102: what `recompress` writes depends on the records alone

Partial, all of them: for records that can be rewritten without loss (`Rewritable`), and groupings as in C60.
-/

namespace Warcio.Props
open Warcio ArchiveIter Recompressor

set_option linter.unusedSectionVars false

/-- What the compressor makes of some data that is given to it at once (GzippingWrapper, warcwriter.py:113-128; specification only). -/
def pressed [Deflater] (d : Bytes) : Bytes := Deflater.outFrom [] [d] ++ Deflater.flush [d]

section
variable [PyUni] [Hashlib] [Zlib] [Deflater] {IsMember : Bytes → Bytes → Prop}

omit [Zlib] [PyUni] [Hashlib] in
theorem own_pressed (hu : Deflater.Uniform) {z d : Bytes} (h : Own IsMember z d) : z = pressed d := by
  obtain ⟨-, ws, h1, rfl⟩ := h
  exact hu ws [d] (by simpa using h1)

omit [Zlib] [PyUni] [Hashlib] in
theorem all_pressed (hu : Deflater.Uniform) : ∀ {xs : List (WarcRecord × Bytes)} {out : List (Bytes × WarcRecord)}, out.map (·.2) = xs.map (·.1) →
    (∀ y ∈ out, Stored (Own IsMember) true y.1 y.2) → out.flatMap (·.1) = xs.flatMap (fun x => pressed x.1.bytes)
  | [], [], _, _ => rfl
  | [], _ :: _, h, _ => by cases h
  | _ :: _, [], h, _ => by cases h
  | x :: xs, y :: out, h, hs => by
    simp only [List.map_cons, List.cons.injEq] at h
    have h1 : Own IsMember y.1 y.2.bytes := hs y (by simp)
    rw [List.flatMap_cons, List.flatMap_cons, all_pressed hu h.2 (fun z hz => hs z (by simp [hz])), own_pressed hu h1, h.1]

/-- C102: `recompress` turns a file of records in normal form, not compressed or compressed by whatever tool, and grouped into members in any way with at least one record in each, into one
member for each record, with the bytes of the record and nothing else; the output is a function of the records. -/
theorem C102_canonical_partial (L : LawfulGzip IsMember) (D : LawfulDeflater IsMember) (hu : Deflater.Uniform) {f : Bytes → Bytes} (H : Hashlib.hash (lit "sha1") = some f) {c : BuilderCfg}
    (hf : c.filter = some) (hc : c.gzip = true) {m : Nat} {xs : List (WarcRecord × Bytes)} (hne : xs ≠ []) (hw : ∀ x ∈ xs, x.1.Rewritable m x.2) (hn : ∀ x ∈ xs, x.1.Normal)
    {g : FileObj} (hg : Recompressible IsMember m xs g) (ids : Nat → Str) (more : List Nat) :
    ∃ o : Recompressor.Outcome, (o = .noErrors xs.length ∨ o = .fixed xs.length) ∧
      recompress c ids g more = (o, ({} : OutFile).extended (xs.flatMap (fun x => pressed x.1.bytes))) := by
  obtain ⟨out, o, o1, o2, o3⟩ := hg.run L (ownDeflater D) H hf hc hne hw ids more
  obtain ⟨k1, k2⟩ := o1.normal (fun x hx => ⟨hn x hx, (hw x hx).oneLength⟩)
  exact ⟨o, o2, by rw [o3, all_pressed hu k1 k2]⟩

/-- C102: two files with the same records become the same file, byte by byte. -/
theorem C102_same_partial (L : LawfulGzip IsMember) (D : LawfulDeflater IsMember) (hu : Deflater.Uniform) {f : Bytes → Bytes} (H : Hashlib.hash (lit "sha1") = some f) {c : BuilderCfg}
    (hf : c.filter = some) (hc : c.gzip = true) {m m' : Nat} {xs xs' : List (WarcRecord × Bytes)} (hx : xs.map (·.1) = xs'.map (·.1)) (hne : xs ≠ [])
    (hw : ∀ x ∈ xs, x.1.Rewritable m x.2) (hw' : ∀ x ∈ xs', x.1.Rewritable m' x.2) (hn : ∀ x ∈ xs, x.1.Normal)
    {g g' : FileObj} (hg : Recompressible IsMember m xs g) (hg' : Recompressible IsMember m' xs' g') (ids ids' : Nat → Str) (more more' : List Nat) :
    (recompress c ids g more).2 = (recompress c ids' g' more').2 := by
  have hne' : xs' ≠ [] := by
    rintro rfl
    exact hne (List.map_eq_nil_iff.1 hx)
  have hn' : ∀ x ∈ xs', x.1.Normal := by
    intro x h
    have : x.1 ∈ xs.map (·.1) := by rw [hx]; exact List.mem_map_of_mem h
    obtain ⟨y, hy, e⟩ := List.mem_map.1 this
    exact e ▸ hn y hy
  obtain ⟨o, -, h1⟩ := C102_canonical_partial L D hu H hf hc hne hw hn hg ids more
  obtain ⟨o', -, h2⟩ := C102_canonical_partial L D hu H hf hc hne' hw' hn' hg' ids' more'
  have e : ∀ ys : List (WarcRecord × Bytes), ys.flatMap (fun x => pressed x.1.bytes) = (ys.map (·.1)).flatMap (fun w => pressed w.bytes) := fun ys => by rw [List.flatMap_map]
  rw [h1, h2, e, e, hx]

/-- C102: a file that this compressor has written, with one record in normal form in each member, is left as it is, byte by byte. -/
theorem C102_untouched_partial (L : LawfulGzip IsMember) (D : LawfulDeflater IsMember) (hu : Deflater.Uniform) {f : Bytes → Bytes} (H : Hashlib.hash (lit "sha1") = some f) {c : BuilderCfg}
    (hf : c.filter = some) (hc : c.gzip = true) {m : Nat} {xs : List (WarcRecord × Bytes)} (hne : xs ≠ []) (hw : ∀ x ∈ xs, x.1.Rewritable m x.2) (hn : ∀ x ∈ xs, x.1.Normal)
    {zs : List Bytes} (hz : Each (fun x z => ∃ ws : List Bytes, ws.flatten = x.1.bytes ∧ z = Deflater.outFrom [] ws ++ Deflater.flush ws) xs zs)
    {g : FileObj} (hg : g.rest = zs.flatten) (hr : ReadsGz g 16384 m zs) (ids : Nat → Str) (more : List Nat) :
    recompress c ids g more = (.noErrors xs.length, ({} : OutFile).extended g.rest) := by
  have hz' : ∀ {xs : List (WarcRecord × Bytes)} {zs : List Bytes}, Each (fun x z => ∃ ws : List Bytes, ws.flatten = x.1.bytes ∧ z = Deflater.outFrom [] ws ++ Deflater.flush ws) xs zs →
      Each (fun x z => IsMember z x.1.bytes) xs zs ∧ zs.flatten = xs.flatMap (fun x => pressed x.1.bytes) := by
    intro xs zs h
    induction h with
    | nil => exact ⟨.nil, rfl⟩
    | cons h1 h2 ih =>
      obtain ⟨ws, w1, rfl⟩ := h1
      refine ⟨.cons (w1 ▸ D ws) ih.1, ?_⟩
      rw [List.flatten_cons, List.flatMap_cons, ih.2, hu ws [ws.flatten] (by simp), w1]
      rfl
  obtain ⟨out, o1, o2⟩ := C60_gzip L (ownDeflater D) H hf hc hne hw (hz' hz).1 hg hr ids more
  obtain ⟨k1, k2⟩ := o1.normal (fun x hx => ⟨hn x hx, (hw x hx).oneLength⟩)
  rw [o2, all_pressed hu k1 k2, hg, (hz' hz).2]

/-- C102: files can be put together before they are recompressed or after it, with the same result. -/
theorem C102_together_partial (L : LawfulGzip IsMember) (D : LawfulDeflater IsMember) (hu : Deflater.Uniform) {f : Bytes → Bytes} (H : Hashlib.hash (lit "sha1") = some f) {c : BuilderCfg}
    (hf : c.filter = some) (hc : c.gzip = true) {m : Nat} {xs ys : List (WarcRecord × Bytes)} (hx : xs ≠ []) (hy : ys ≠ []) (hw : ∀ x ∈ xs ++ ys, x.1.Rewritable m x.2) (hn : ∀ x ∈ xs ++ ys, x.1.Normal)
    {g g₁ g₂ : FileObj} (hg : Recompressible IsMember m (xs ++ ys) g) (h₁ : Recompressible IsMember m xs g₁) (h₂ : Recompressible IsMember m ys g₂) (ids ids₁ ids₂ : Nat → Str) (more more₁ more₂ : List Nat) :
    (recompress c ids g more).2.content = (recompress c ids₁ g₁ more₁).2.content ++ (recompress c ids₂ g₂ more₂).2.content := by
  obtain ⟨o, -, e⟩ := C102_canonical_partial L D hu H hf hc (by simp [hx]) hw hn hg ids more
  obtain ⟨o₁, -, e₁⟩ := C102_canonical_partial L D hu H hf hc hx (fun x h => hw x (by simp [h])) (fun x h => hn x (by simp [h])) h₁ ids₁ more₁
  obtain ⟨o₂, -, e₂⟩ := C102_canonical_partial L D hu H hf hc hy (fun x h => hw x (by simp [h])) (fun x h => hn x (by simp [h])) h₂ ids₂ more₂
  rw [e, e₁, e₂]
  show [] ++ (xs ++ ys).flatMap _ = ([] ++ _) ++ ([] ++ _)
  simp

open Cli in
/-- C102 at the command line: `warcio recompress a b` writes to `b` what the records in `a` alone determine. -/
theorem C102_cli_partial (L : LawfulGzip IsMember) (D : LawfulDeflater IsMember) (hu : Deflater.Uniform) {f : Bytes → Bytes} (H : Hashlib.hash (lit "sha1") = some f)
    {m : Nat} {xs : List (WarcRecord × Bytes)} (hne : xs ≠ []) (hw : ∀ x ∈ xs, x.1.Rewritable m x.2) (hn : ∀ x ∈ xs, x.1.Normal) (ids : Nat → Str) {a b : Str} (ha : FileName a) (hb : FileName b)
    (hab : a ≠ b) {w : World} (hwb : w.writable b = true) {data : Bytes} (h : w.files a = some data) (hg : Recompressible IsMember m xs { content := data }) :
    let (x, w') := run ids (.recompress a b false) w
    x = .done ∧ w'.files b = some (xs.flatMap (fun x => pressed x.1.bytes)) := by
  obtain ⟨o, o1, o2⟩ := C102_canonical_partial L D hu H (c := { gzip := true }) rfl rfl hne hw hn hg ids []
  have key := C82_recompress ids ha hb hab hwb h
  rw [o2] at key
  generalize Cli.run ids (.recompress a b false) w = y at key ⊢
  obtain ⟨x, w'⟩ := y
  have hx : x = .done := by
    rcases o1 with rfl | rfl
    all_goals exact congrArg Prod.fst key.2
  dsimp only at key ⊢
  exact ⟨hx, by rw [key.1]; rfl⟩

end

section
open Toy

/-- A record with all that the writer would add. -/
def exSealed : WarcRecord where
  head := utf8Encode (lit "WARC/1.0\r\nWARC-Type: metadata\r\nContent-Length: 3\r\nWARC-Payload-Digest: sha1:A\r\nWARC-Block-Digest: sha1:B\r\n\r\n")
  headers := [(lit "WARC-Type", lit "metadata"), (lit "Content-Length", lit "3"), (lit "WARC-Payload-Digest", lit "sha1:A"), (lit "WARC-Block-Digest", lit "sha1:B")]
  block := utf8Encode (lit "abc")
  sep := [13, 10, 13, 10]

theorem exSealed_good : exSealed.Good where
  head := by
    have h := warcHead_toBytes (h := { statusline := [], protocol := lit "WARC/1.0", headers := exSealed.headers })
      { status_trim := by decide
        status_lf := by decide
        headers := by
          intro h hh
          simp only [exSealed, List.mem_cons, List.not_mem_nil, or_false] at hh
          rcases hh with rfl | rfl | rfl | rfl
          all_goals exact ⟨⟨by decide, by decide, by decide, by decide, by decide⟩, by decide, by decide⟩
        protocol := .inl ⟨rfl, goodList_warc, by decide⟩ }
    have e : ({ statusline := [], protocol := lit "WARC/1.0", headers := exSealed.headers } : StatusAndHeaders).toBytes = exSealed.head := by decide +kernel
    rw [e] at h
    exact h
  length := ⟨lit "3", by decide, (parseInt_iff _ _).1 (by decide +kernel)⟩
  uri := fun h => by rcases h with h | h | h <;> exact absurd h (by decide)
  sep := ⟨by decide, ⟨utf8Encode (lit "\r\n\r"), by decide⟩, by decide⟩

theorem exSealed_rewritable (m : Nat) : exSealed.Rewritable m exSealed.block where
  good := exSealed_good
  headers := by
    intro h hh
    simp only [exSealed, List.mem_cons, List.not_mem_nil, or_false] at hh
    rcases hh with rfl | rfl | rfl | rfl
    all_goals exact ⟨⟨by decide, by decide, by decide, by decide, by decide⟩, by decide, by decide⟩
  oneLength := by show _ ≤ 1; decide
  oneType := by show _ ≤ 1; decide
  tidy := by
    intro u hu
    have : exSealed.value (lit "WARC-Target-URI") = none := by decide
    rw [this] at hu; cases hu
  splits := by
    refine ⟨[], .whole (.inl ?_)⟩
    rintro ⟨u, v, h, _⟩
    have : exSealed.value (lit "WARC-Target-URI") = none := by decide
    rw [this] at h; cases h
  revisit := fun h => absurd h (by decide)

theorem exSealed_normal : exSealed.Normal where
  head := ⟨lit "WARC/1.0", [], ⟨by decide, by decide +kernel, by decide +kernel⟩, by decide +kernel⟩
  length := by decide +kernel
  payloadDigest := .inl ⟨'s', lit "ha1:A", by decide⟩
  blockDigest := ⟨'s', lit "ha1:B", by decide⟩
  sep := rfl

/-- The hypotheses of the theorems: the record twice, without compression, and in one gzip member, and once. -/
example : let xs := [(exSealed, exSealed.block), (exSealed, exSealed.block)]
    Deflater.Uniform ∧ (∀ x ∈ xs, x.1.Rewritable 0 x.2) ∧ (∀ x ∈ xs, x.1.Normal) ∧
    Recompressible IsMember 0 xs { content := exSealed.bytes ++ exSealed.bytes } ∧ Recompressible IsMember 0 xs { content := compress (exSealed.bytes ++ exSealed.bytes) } ∧
    Recompressible IsMember 0 [(exSealed, exSealed.block)] { content := exSealed.bytes } :=
  ⟨toy_uniform, fun x hx => by simp only [List.mem_cons, List.not_mem_nil, or_false, or_self] at hx; exact hx ▸ exSealed_rewritable 0,
    fun x hx => by simp only [List.mem_cons, List.not_mem_nil, or_false, or_self] at hx; exact hx ▸ exSealed_normal,
    .plain (by decide +kernel) ⟨by decide, by simp, .inr ⟨rfl, by decide⟩⟩, .member (by decide) (by decide) rfl rfl (by show _ = _; decide +kernel) ⟨by decide, .inl rfl⟩,
    .plain (by decide +kernel) ⟨by decide, by simp, .inr ⟨rfl, by decide⟩⟩⟩

/-- Both become the same file, which `recompress` leaves as it is. -/
example : let one := recompress {} (fun _ => []) { content := exSealed.bytes ++ exSealed.bytes } []
    let two := recompress {} (fun _ => []) { content := compress (exSealed.bytes ++ exSealed.bytes) } []
    one.1 = .noErrors 2 ∧ two.1 = .fixed 2 ∧ one.2.content = two.2.content ∧ one.2.content = compress exSealed.bytes ++ compress exSealed.bytes ∧
    (recompress {} (fun _ => []) { content := one.2.content } []).2.content = one.2.content := by
  decide +kernel

end
end Warcio.Props
