import Verif.Props.Index
import Verif.Props.Extract
import Verif.Props.Cut

/-!
# Property C73: from the index to the record

`warcio index` prints for each record where it is; `warcio extract` prints what is there.
-/

set_option linter.unusedSectionVars false

namespace Warcio.Props

open Warcio ArchiveIter Indexer Extractor

theorem each_map_left {α β γ : Type} {R : β → γ → Prop} {g : α → β} : ∀ {xs : List α} {ys : List γ}, Each R (xs.map g) ys → Each (fun y x => R (g x) y) ys xs
  | [], _, h => by cases h; exact .nil
  | x :: xs, _, h => by
    rw [List.map_cons] at h
    cases h with
    | cons h1 h2 => exact .cons h1 (each_map_left h2)

theorem each_mem {α β : Type} {R R' : α → β → Prop} : ∀ {xs : List α} {ys : List β}, Each R xs ys → (∀ x y, y ∈ ys → R x y → R' x y) → Each R' xs ys
  | _, _, .nil, _ => .nil
  | _, _, .cons h1 h2, h => .cons (h _ _ (.head _) h1) (each_mem h2 (fun x y hy => h x y (.tail _ hy)))

theorem lookup_filterMap {g : Str → Option Str} {n v : Str} (hv : g n = some v) : ∀ l : List Str, n ∈ l → (l.filterMap (fun k => (g k).map (fun v => (k, v)))).lookup n = some v
  | k :: l, h => by
    by_cases hk : n = k
    · subst hk
      rw [List.filterMap_cons, hv]
      simp
    · have hl := lookup_filterMap hv l (by simpa [hk] using h)
      rw [List.filterMap_cons]
      cases g k with
      | none => exact hl
      | some w =>
        simp only [Option.map_some, List.lookup_cons]
        rw [beq_eq_false_iff_ne.2 hk]
        exact hl

section
variable [PyUni]

theorem placements_split : ∀ (xs : List (WarcRecord × Option StatusAndHeaders)) (off : Int) (y : Located), y ∈ placements off xs →
    ∃ pre post, xs = pre ++ (y.record, y.http) :: post ∧ y.offset = off + len (pre.flatMap (·.1.bytes)) ∧ y.size = len (y.record.head ++ y.record.block)
  | (w, h) :: xs, off, y, hy => by
    rw [placements] at hy
    rcases List.mem_cons.1 hy with rfl | hy
    · exact ⟨[], xs, rfl, by simp [len], rfl⟩
    · obtain ⟨pre, post, rfl, h2, h3⟩ := placements_split xs _ y hy
      refine ⟨(w, h) :: pre, post, rfl, ?_, h3⟩
      rw [h2, List.flatMap_cons]
      simp only [len, List.length_append]; omega

theorem placementsGz_split : ∀ (xs : List (Bytes × WarcRecord × Option StatusAndHeaders)) (off : Int) (y : Located), y ∈ placementsGz off xs →
    ∃ pre z post, xs = pre ++ (z, y.record, y.http) :: post ∧ y.offset = off + len (pre.flatMap (·.1)) ∧ y.size = len z
  | (z, w, h) :: xs, off, y, hy => by
    rw [placementsGz] at hy
    rcases List.mem_cons.1 hy with rfl | hy
    · exact ⟨[], z, xs, rfl, by simp [len], rfl⟩
    · obtain ⟨pre, z', post, rfl, h2, h3⟩ := placementsGz_split xs _ y hy
      refine ⟨(z, w, h) :: pre, z', post, rfl, ?_, h3⟩
      rw [h2, List.flatMap_cons]
      simp only [len, List.length_append]; omega

end

section
variable [PyUni] [Hashlib] [Zlib] {IsMember : Bytes → Bytes → Prop} {IsCoded : DType → Bytes → Bytes → Prop}

/-- What is at the offset of a record is the record. -/
theorem extract_located (L : LawfulGzip IsMember) (LC : LawfulCodecs IsCoded) {m : Nat} {f : FileObj} {xs : List Located} (ha : Archived IsMember m f xs) (h0 : f.pos = 0)
    (hs : f.seekable = true) {y : Located} (hy : y ∈ xs) {po ho : Bool} {out : Bytes} (hp : Printed IsCoded y.record m po ho out) :
    extract f y.offset po ho = (.ok (), out) := by
  have horig : f.origin = 0 := by unfold FileObj.origin; rw [if_pos hs, h0]; rfl
  have hcont : f.rest = f.content := by unfold FileObj.rest; rw [h0]; rfl
  cases ha with
  | plain xs h1 h2 h3 =>
    obtain ⟨pre, post, rfl, k2, -⟩ := placements_split xs _ y hy
    rw [k2, horig, Int.zero_add]
    rw [hcont, List.flatMap_append] at h2
    exact C59_plain_partial L LC hs (ws := post.map (·.1)) (fun w hw => by
      rcases List.mem_cons.1 hw with rfl | hw
      · exact h1 (y.record, y.http) (by simp)
      · obtain ⟨x, hx, rfl⟩ := List.mem_map.1 hw
        exact h1 x (by simp [hx])) (by rw [h2, List.flatMap_cons, List.flatMap_cons, List.flatMap_map]) h3 hp
  | gzip xs hne h1 h2 h3 =>
    obtain ⟨pre, z, post, rfl, k2, -⟩ := placementsGz_split xs _ y hy
    rw [k2, horig, Int.zero_add]
    rw [hcont, List.flatMap_append, List.flatMap_cons] at h2
    obtain ⟨g1, g2⟩ := h1 (z, y.record, y.http) (by simp)
    exact C59_gzip_partial L LC hs g1 g2 h2 ⟨h3.block, h3.lines.imp id (fun h => ⟨h.1, fun z' hz' => by
      rw [List.mem_singleton.1 hz']; exact h.2 z (by simp)⟩)⟩ hp

/-- C73: for any archive, compressed or not, and any fields with `offset` among them, the line that `warcio index` prints for a record is a JSON object whose
`offset`, given to `warcio extract`, makes it print this record, or the part of it that is asked for.  In part: as C58 and C59. -/
theorem C73_lookup_partial (L : LawfulGzip IsMember) (LC : LawfulCodecs IsCoded) {m : Nat} {f : FileObj} {xs : List Located} (ha : Archived IsMember m f xs) (h0 : f.pos = 0)
    (hs : f.seekable = true) {fields : List Str} (hf : lit "offset" ∈ fields) (hx : ∀ x ∈ xs, Indexable fields m x) {file base : Str} (hb : IsBasename file base) (ids : Nat → Str) :
    ∃ lines : List Str, index fields false ids [(file, f)] = (.ok (), lines.flatMap (fun l => l ++ ['\n'])) ∧
      Each (fun line x => '\n' ∉ line ∧ ∃ entry offset, Json.object line = some (entry, []) ∧ entry.lookup (lit "offset") = some offset ∧
        ∀ po ho out, Printed IsCoded x.record m po ho out → extractAt f offset po ho = (.ok (), out)) lines xs := by
  obtain ⟨lines, k1, k2⟩ := C58_index_partial L ids [(file, f, base, xs)] (fun i hi => by rw [List.mem_singleton.1 hi]; exact ⟨hb, ha, hx⟩)
  refine ⟨lines, k2, ?_⟩
  rw [List.flatMap_singleton] at k1
  refine each_mem (each_map_left k1) ?_
  rintro line x hx' ⟨q1, q2⟩
  refine ⟨q1, _, intToStr x.offset, q2, ?_, ?_⟩
  · unfold Located.entry
    exact lookup_filterMap (g := fun n => x.field base n) (by unfold Located.field; rw [if_pos rfl]) _ (by rw [List.mem_eraseDups]; exact hf)
  · intro po ho out hp
    unfold extractAt
    rw [parseInt_intToStr]
    exact extract_located L LC ha h0 hs hx' hp

/-- The bytes of a file from an offset on, as many as this: what is fetched when an offset and a length are given. -/
def FileObj.slice (f : FileObj) (offset length : Nat) : FileObj := { f with content := (f.content.drop offset).take length, pos := 0 }

theorem shows_of_whole {w : WarcRecord} {io : IterOpts} {m : Nat} {rec : Record Unit} {left : Bytes} (h : w.ShowsPart w.block io m rec left) : w.Shows io m rec left := by
  have e : len left + (len w.block - len w.block) = len left := by omega
  refine ⟨h.format, h.version, h.recType, h.contentType, h.length, h.cleaned, h.block, h.payload, ?_, ?_, h.checker⟩
  · have := h.payloadLength; rwa [e] at this
  · intro q1 q2 q3 q4
    have := h.http q1 q2 q3 q4
    rwa [e] at this

/-- A record without the blank lines behind it. -/
theorem extract_bare (L : LawfulGzip IsMember) (LC : LawfulCodecs IsCoded) {f : FileObj} (hs : f.seekable = true) {w : WarcRecord} (hw : w.Good) (hf : f.content = w.head ++ w.block) {m : Nat} (hr : Reads f 16384 m)
    {po ho : Bool} {out : Bytes} (hp : Printed IsCoded w m po ho out) : extract f 0 po ho = (.ok (), out) := by
  obtain ⟨it, k1, k2⟩ := cut_ready L (io := {}) (ws := []) (w := w) (part := w.block) (tail := []) ⟨by simpa using hw, fun _ _ => .inl rfl, rfl⟩ (.inl ⟨List.prefix_refl _, rfl⟩) (fun h => .inl h)
    (f := { f with pos := 0 }) (by simp [FileObj.rest, hf]) (bs := 16384) (m := m) ⟨hr.block, hr.first, hr.lines⟩ (kf := none) (by simp)
  exact extract_ready LC hs (off := 0) k1 k2 (fun _ _ h => shows_of_whole h) rfl hp

/-- The offset and the size of a record are those of its bytes. -/
theorem extract_slice (L : LawfulGzip IsMember) (LC : LawfulCodecs IsCoded) {m : Nat} {f : FileObj} {xs : List Located} (ha : Archived IsMember m f xs) (h0 : f.pos = 0)
    (hs : f.seekable = true) {y : Located} (hy : y ∈ xs) {po ho : Bool} {out : Bytes} (hp : Printed IsCoded y.record m po ho out) :
    0 ≤ y.offset ∧ 0 ≤ y.size ∧ y.offset + y.size ≤ len f.content ∧ extract (FileObj.slice f y.offset.toNat y.size.toNat) 0 po ho = (.ok (), out) := by
  have horig : f.origin = 0 := by unfold FileObj.origin; rw [if_pos hs, h0]; rfl
  have hcont : f.rest = f.content := by unfold FileObj.rest; rw [h0]; rfl
  cases ha with
  | plain xs h1 h2 h3 =>
    obtain ⟨pre, post, rfl, k2, k3⟩ := placements_split xs _ y hy
    rw [horig, Int.zero_add] at k2
    rw [hcont, List.flatMap_append, List.flatMap_cons] at h2
    have hc : (FileObj.slice f y.offset.toNat y.size.toNat).content = y.record.head ++ y.record.block := by
      simp only [FileObj.slice, h2, k2, k3, len, Int.toNat_natCast, List.drop_left, WarcRecord.bytes]
      rw [List.append_assoc (y.record.head ++ y.record.block), List.take_left]
    refine ⟨by rw [k2]; exact Int.natCast_nonneg _, by rw [k3]; exact Int.natCast_nonneg _, ?_, extract_bare L LC (f := FileObj.slice f y.offset.toNat y.size.toNat) hs (h1 (y.record, y.http) (by simp)) hc ⟨h3.block, h3.first, h3.lines⟩ hp⟩
    rw [k2, k3, h2]
    simp only [len, List.length_append, WarcRecord.bytes]; omega
  | gzip xs hne h1 h2 h3 =>
    obtain ⟨pre, z, post, rfl, k2, k3⟩ := placementsGz_split xs _ y hy
    rw [horig, Int.zero_add] at k2
    rw [hcont, List.flatMap_append, List.flatMap_cons] at h2
    obtain ⟨g1, g2⟩ := h1 (z, y.record, y.http) (by simp)
    have hc : (FileObj.slice f y.offset.toNat y.size.toNat).content = [] ++ (z ++ []) := by
      simp only [FileObj.slice, h2, k2, k3, len, Int.toNat_natCast, List.drop_left, List.take_left, List.nil_append, List.append_nil]
    refine ⟨by rw [k2]; exact Int.natCast_nonneg _, by rw [k3]; exact Int.natCast_nonneg _, ?_, C59_gzip_partial L LC (f := FileObj.slice f y.offset.toNat y.size.toNat) hs g1 g2 hc ⟨h3.block, h3.lines.imp id (fun h => ⟨h.1, fun z' hz' => by
      rw [List.mem_singleton.1 hz']; exact h.2 z (by simp)⟩)⟩ hp⟩
    have h4 := congrArg List.length h2
    rw [k2, k3]
    rw [List.length_append, List.length_append] at h4
    have h5 : len (pre.flatMap (·.1)) + len z ≤ ((((pre.flatMap (·.1)).length + (z.length + (post.flatMap (·.1)).length)) : Nat) : Int) := by
      simp only [len]; omega
    refine Int.le_trans h5 (Int.le_of_eq ?_)
    exact congrArg Nat.cast h4.symm

/-- C73: the `offset` and the `length` in the line for a record are those of its bytes: these bytes alone, without anything before and behind them, are enough for `warcio extract` to print the record.  In part: as C58 and C59. -/
theorem C73_slice_partial (L : LawfulGzip IsMember) (LC : LawfulCodecs IsCoded) {m : Nat} {f : FileObj} {xs : List Located} (ha : Archived IsMember m f xs) (h0 : f.pos = 0)
    (hs : f.seekable = true) {fields : List Str} (hf : lit "offset" ∈ fields) (hl : lit "length" ∈ fields) (hx : ∀ x ∈ xs, Indexable fields m x) {file base : Str} (hb : IsBasename file base) (ids : Nat → Str) :
    ∃ lines : List Str, index fields false ids [(file, f)] = (.ok (), lines.flatMap (fun l => l ++ ['\n'])) ∧
      Each (fun line x => '\n' ∉ line ∧ ∃ entry offset length, Json.object line = some (entry, []) ∧ entry.lookup (lit "offset") = some (natToStr offset) ∧ entry.lookup (lit "length") = some (natToStr length) ∧
        ∀ po ho out, Printed IsCoded x.record m po ho out → offset + length ≤ f.content.length ∧ extract (FileObj.slice f offset length) 0 po ho = (.ok (), out)) lines xs := by
  obtain ⟨lines, k1, k2⟩ := C58_index_partial L ids [(file, f, base, xs)] (fun i hi => by rw [List.mem_singleton.1 hi]; exact ⟨hb, ha, hx⟩)
  refine ⟨lines, k2, ?_⟩
  rw [List.flatMap_singleton] at k1
  have hpos : ∀ y ∈ xs, ∃ a b : Nat, y.offset = a ∧ y.size = b := by
    have horig : f.origin = 0 := by unfold FileObj.origin; rw [if_pos hs, h0]; rfl
    intro y hy
    cases ha with
    | plain xs h1 h2 h3 =>
      obtain ⟨pre, post, rfl, k2, k3⟩ := placements_split xs _ y hy
      rw [horig, Int.zero_add] at k2
      exact ⟨_, _, k2, k3⟩
    | gzip xs hne h1 h2 h3 =>
      obtain ⟨pre, z, post, rfl, k2, k3⟩ := placementsGz_split xs _ y hy
      rw [horig, Int.zero_add] at k2
      exact ⟨_, _, k2, k3⟩
  refine each_mem (each_map_left k1) ?_
  rintro line x hx' ⟨q1, q2⟩
  obtain ⟨a, b, ha', hb'⟩ := hpos x hx'
  refine ⟨q1, _, a, b, q2, ?_, ?_, ?_⟩
  · unfold Located.entry
    exact lookup_filterMap (g := fun n => x.field base n) (by unfold Located.field; rw [if_pos rfl, ha']; rfl) _ (by rw [List.mem_eraseDups]; exact hf)
  · unfold Located.entry
    exact lookup_filterMap (g := fun n => x.field base n) (by unfold Located.field; rw [if_neg (by decide), if_pos rfl, hb']; rfl) _ (by rw [List.mem_eraseDups]; exact hl)
  · intro po ho out hp
    have := extract_slice L LC ha h0 hs hx' hp
    rw [ha', hb'] at this
    refine ⟨?_, this.2.2.2⟩
    have := this.2.2.1
    simp only [len] at this
    omega

end
end Warcio.Props

namespace Warcio.Props

open Warcio ArchiveIter Indexer Extractor

section
open Toy

/-- The hypotheses of `C73_lookup_partial` and `C73_slice_partial`, with something to be printed for both records. -/
example : ∃ xs : List Located, Archived IsMember 17 exGz xs ∧ exGz.pos = 0 ∧ exGz.seekable = true ∧ lit "offset" ∈ exFields ∧ lit "length" ∈ exFields ∧ (∀ x ∈ xs, Indexable exFields 17 x) ∧
    IsBasename (lit "c.gz") (lit "c.gz") ∧ xs.map (·.record) = [exHttp, exInfo] ∧ LawfulCodecs toyCoded ∧ Printed toyCoded exHttp 17 false false (exHttp.head ++ exHttp.block) ∧ Printed toyCoded exInfo 17 true false exInfo.block := by
  have nouri : ¬ ∃ n ∈ exFields, PyUni.lower n = PyUni.lower (lit "WARC-Target-URI") := by decide
  have hv : VersionLine exHttp.head (lit "WARC/1.0") [] := ⟨by decide, by decide +kernel, by decide +kernel⟩
  have he : utf8Encode (headText (lit "WARC/1.0") [] exHttp.headers) = exHttp.head := by decide +kernel
  have hh : ¬ exInfo.Http := by
    rintro ⟨u, v, h, _⟩
    have : exInfo.value (lit "WARC-Target-URI") = none := by decide
    rw [this] at h; cases h
  refine ⟨placementsGz exGz.origin [(compress exHttp.bytes, exHttp, some exHttpHead), (compress exInfo.bytes, exInfo, none)],
    .gzip exGz [(compress exHttp.bytes, exHttp, some exHttpHead), (compress exInfo.bytes, exInfo, none)] (by simp) ?_ rfl (.fit (by decide) rfl (by decide +kernel)), rfl, rfl, by decide, by decide, ?_, ⟨by decide, .inl rfl⟩, rfl, toy_codecs,
    ?_, .payload false _ (fun h => absurd h hh) (.whole (.inl hh))⟩
  · intro x hx
    simp only [List.mem_cons, List.not_mem_nil, or_false] at hx
    rcases hx with rfl | rfl
    · exact ⟨exHttp_good, rfl⟩
    · exact ⟨exInfo_good, rfl⟩
  · intro x hx
    simp only [placementsGz, List.mem_cons, List.not_mem_nil, or_false] at hx
    rcases hx with rfl | rfl
    · exact ⟨fun _ => exHttp_part, fun h => absurd h nouri⟩
    · exact ⟨fun _ => exInfo_part 17, fun h => absurd h nouri⟩
  · rw [← he]; exact .all _ _ _ exHttp_rewritable hv

/-- What the model does: with the offset and the length of the second record, see the example for C58. -/
example : extractAt exFile (lit "112") true false = (.ok (), exInfo.block) ∧ extract (FileObj.slice exFile 112 71) 0 true false = (.ok (), exInfo.block) ∧
    extractAt exFile (lit "12x") true false = (.error .valueError, []) := by decide +kernel

end
end Warcio.Props
