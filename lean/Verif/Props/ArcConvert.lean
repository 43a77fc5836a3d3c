import Verif.Proofs.ArcConvert
import Verif.Props.Arc
import Verif.Props.Recompress

/-!
# Property C70: an ARC file rewritten as a WARC file

Specification: `Verif/Spec/ArcRewrite.lean`.  `warcio recompress` converts the records of an ARC file
and writes them (recompressor.py:47-63, 66-75).
-/

set_option linter.unusedSectionVars false

namespace Warcio.Props

open Warcio ArchiveIter BufReader Builder Writer Recompressor

section
variable [Zlib] [Deflater] [Hashlib] [PyUni] {IsMember : Bytes → Bytes → Prop}

/-- The pieces of the written file are WARC records for the ARC records, one each, in order. -/
def Turned (IsMember : Bytes → Bytes → Prop) (f : Bytes → Bytes) (ids : Nat → Str) (gzip : Bool) : List (ArcRecord × Bytes) → List (Bytes × WarcRecord) → Prop :=
  Each (fun x y => x.1.Written f ids x.2 y.2 ∧ Stored IsMember gzip y.1 y.2)

theorem turn_ready (D : LawfulDeflater IsMember) {f : Bytes → Bytes} (H : Hashlib.hash (lit "sha1") = some f) {c : BuilderCfg} (hf : c.filter = some)
    {ids : Nat → Str} (hi : ∀ k, ArcRecord.Plain (ids k)) {m : Nat} {xs : List (ArcRecord × Bytes)} (hw : ∀ x ∈ xs, x.1.Convertible (opts ids) m x.2)
    {es : List Expected} (he : Each (fun x e => e.shows = x.1.Shows (opts ids) m) xs es) {g : FileObj} {it : ArchiveIter Source} (ho : openArchive g (opts ids) 16384 none = .ok it)
    (hr : Ready false (some .stopIteration) it es) (hl : xs.length ≤ g.rest.length) :
    ∃ out, Turned IsMember f ids c.gzip xs out ∧ loadAndWrite c ids g = (.ok xs.length, ({} : OutFile).extended (out.flatMap (·.1))) := by
  have hb := open_bound ho
  obtain ⟨out, o1, o2⟩ := copyLoop_shown (io := opts ids) (m := m) (R := fun (x : ArcRecord × Bytes) w => ∃ k d, x.1.Dated d ∧ w = x.1.asWarc (ids k) (datetimeToIsoDate d)) (P := (·.2)) D H hf rfl rfl xs es
    (each_imp he (fun x hx e h rec left hs => by
      rw [h] at hs
      obtain ⟨k, d, k1, k2⟩ := ArcRecord.shows_asWarc rfl hs
      exact ⟨_, ⟨k, d, k1, rfl⟩, ArcRecord.shaped_asWarc rfl (hw x hx) (hi k) d, k2⟩)) (PyStream.bound it.reader + 2) it {} 0 hr (by omega) rfl
  refine ⟨out, each_imp o1 ?_, ?_⟩
  · rintro x - y ⟨⟨w, ⟨k, d, k1, rfl⟩, k2⟩, k3⟩
    exact ⟨ArcRecord.written k1 k2, k3⟩
  · unfold loadAndWrite
    rw [ho]
    dsimp only
    rw [o2, if_pos rfl, Nat.zero_add]

theorem opts_arcFit {ids : Nat → Str} {m : Nat} {xs : List (ArcRecord × Bytes)} (hw : ∀ x ∈ xs, x.1.Convertible (opts ids) m x.2) :
    ArcFit (opts ids) (xs.map (·.1)) where
  good := by
    intro a ha
    obtain ⟨x, hx, rfl⟩ := List.mem_map.1 ha
    exact (hw x hx).good
  verify := rfl
  digests := by simp [Recompressor.opts]

theorem each_arcs {io : IterOpts} {m : Nat} : ∀ (xs : List (ArcRecord × Bytes)) (off : Int), Each (fun x e => e.shows = x.1.Shows io m) xs (ArcRecord.placed io m off (xs.map (·.1)))
  | [], _ => .nil
  | _ :: xs, _ => .cons rfl (each_arcs xs _)

/-- C70: of an ARC file whose records can be converted, `_load_and_write` makes a file of WARC records:
for each record, in order, the one it is converted to. -/
theorem C70_rewrite_partial (L : LawfulGzip IsMember) (D : LawfulDeflater IsMember) {f : Bytes → Bytes} (H : Hashlib.hash (lit "sha1") = some f) {c : BuilderCfg} (hf : c.filter = some)
    {ids : Nat → Str} (hi : ∀ k, ArcRecord.Plain (ids k)) {m : Nat} {xs : List (ArcRecord × Bytes)} (hw : ∀ x ∈ xs, x.1.Convertible (opts ids) m x.2)
    {g : FileObj} (hg : g.rest = xs.flatMap (·.1.bytes)) (hr : Reads g 16384 m) :
    ∃ out, Turned IsMember f ids c.gzip xs out ∧ loadAndWrite c ids g = (.ok xs.length, ({} : OutFile).extended (out.flatMap (·.1))) := by
  have hfit := opts_arcFit hw
  have hg' : g.rest = (xs.map (·.1)).flatMap ArcRecord.bytes := by rw [hg, List.flatMap_map]
  obtain ⟨it, k1, k2⟩ := arc_ready L hfit hg' hr (kf := none) (by simp)
  refine turn_ready D H hf hi hw (each_arcs xs _) k1 k2 ?_
  rw [hg]
  refine length_le_flatMap _ _ (fun x hx => ?_)
  have := (hw x hx).good.two
  intro hc
  rw [hc] at this
  simp at this

/-- C70 for `warcio recompress`. -/
theorem C70_recompress_partial (L : LawfulGzip IsMember) (D : LawfulDeflater IsMember) {f : Bytes → Bytes} (H : Hashlib.hash (lit "sha1") = some f) {c : BuilderCfg} (hf : c.filter = some) (hc : c.gzip = true)
    {ids : Nat → Str} (hi : ∀ k, ArcRecord.Plain (ids k)) {m : Nat} {xs : List (ArcRecord × Bytes)} (hw : ∀ x ∈ xs, x.1.Convertible (opts ids) m x.2)
    {g : FileObj} (hg : g.rest = xs.flatMap (·.1.bytes)) (hr : Reads g 16384 m) (again : List Nat) :
    ∃ out, Turned IsMember f ids true xs out ∧ recompress c ids g again = (.noErrors xs.length, ({} : OutFile).extended (out.flatMap (·.1))) := by
  obtain ⟨out, o1, o2⟩ := C70_rewrite_partial L D H hf hi hw hg hr
  rw [hc] at o1
  exact ⟨out, o1, by unfold recompress; rw [o2]⟩

theorem each_arcsGz {io : IterOpts} {m : Nat} : ∀ (xs : List (ArcRecord × Bytes)) (ms : List (Bytes × ArcRecord)) (off : Int), ms.map (·.2) = xs.map (·.1) →
    Each (fun x e => e.shows = x.1.Shows io m) xs (ArcRecord.placedGz io m off ms)
  | [], [], _, _ => .nil
  | x :: xs, (z, a) :: ms, _, h => by
    obtain ⟨rfl, h2⟩ := List.cons.inj h
    exact .cons rfl (each_arcsGz xs ms _ h2)

/-- C70 for a file in which each record is a gzip member. -/
theorem C70_rewrite_gzip_partial (L : LawfulGzip IsMember) (D : LawfulDeflater IsMember) {f : Bytes → Bytes} (H : Hashlib.hash (lit "sha1") = some f) {c : BuilderCfg} (hf : c.filter = some)
    {ids : Nat → Str} (hi : ∀ k, ArcRecord.Plain (ids k)) {m : Nat} {xs : List (ArcRecord × Bytes)} (hw : ∀ x ∈ xs, x.1.Convertible (opts ids) m x.2)
    (hne : xs ≠ []) {ms : List (Bytes × ArcRecord)} (hm : ms.map (·.2) = xs.map (·.1)) (hz : ∀ y ∈ ms, IsMember y.1 y.2.bytes)
    {g : FileObj} (hg : g.rest = ms.flatMap (·.1)) (hr : ReadsGz g 16384 m (ms.map (·.1))) :
    ∃ out, Turned IsMember f ids c.gzip xs out ∧ loadAndWrite c ids g = (.ok xs.length, ({} : OutFile).extended (out.flatMap (·.1))) := by
  have hl : ms.length = xs.length := by simpa using congrArg List.length hm
  obtain ⟨it, k1, k2⟩ := arc_gz_ready L (by rw [hm]; exact opts_arcFit hw) hz hg (by rintro rfl; exact hne (List.length_eq_zero_iff.1 hl.symm)) hr (kf := none) (by simp)
  refine turn_ready D H hf hi hw (each_arcsGz xs ms _ hm) k1 k2 ?_
  rw [hg, ← hl]
  refine length_le_flatMap (fun y : Bytes × ArcRecord => y.1) ms (fun y hy => ?_)
  have := L.magic (hz y hy)
  intro hc
  rw [hc] at this
  simp at this

/-- C70 for `warcio recompress` and a file in which each record is a gzip member. -/
theorem C70_recompress_gzip_partial (L : LawfulGzip IsMember) (D : LawfulDeflater IsMember) {f : Bytes → Bytes} (H : Hashlib.hash (lit "sha1") = some f) {c : BuilderCfg} (hf : c.filter = some) (hc : c.gzip = true)
    {ids : Nat → Str} (hi : ∀ k, ArcRecord.Plain (ids k)) {m : Nat} {xs : List (ArcRecord × Bytes)} (hw : ∀ x ∈ xs, x.1.Convertible (opts ids) m x.2)
    (hne : xs ≠ []) {ms : List (Bytes × ArcRecord)} (hm : ms.map (·.2) = xs.map (·.1)) (hz : ∀ y ∈ ms, IsMember y.1 y.2.bytes)
    {g : FileObj} (hg : g.rest = ms.flatMap (·.1)) (hr : ReadsGz g 16384 m (ms.map (·.1))) (again : List Nat) :
    ∃ out, Turned IsMember f ids true xs out ∧ recompress c ids g again = (.noErrors xs.length, ({} : OutFile).extended (out.flatMap (·.1))) := by
  obtain ⟨out, o1, o2⟩ := C70_rewrite_gzip_partial L D H hf hi hw hne hm hz hg hr
  rw [hc] at o1
  exact ⟨out, o1, by unfold recompress; rw [o2]⟩

end

/-! ## The hypotheses are met -/

/-- A page with a URI that needs no cleaning. -/
def exArcTidy : ArcRecord where
  uri := lit "http://x/a"
  ip := lit "1.2.3.4"
  date := lit "20050614070200"
  ctype := lit "text/html"
  length := lit "+27"
  block := utf8Encode (lit "HTTP/1.1 200 OK\r\nA: b\r\n\r\nxy")

/-- Both in a file. -/
def exArcTurn : FileObj := { content := [exArcInfo, exArcTidy].flatMap ArcRecord.bytes }

/-- The identifiers. -/
def exUrn : Nat → Str := fun n => lit "<urn:uuid:" ++ (lit "abcdef").take (n % 6) ++ lit ">"

open Toy in
theorem exArcTidy_good : exArcTidy.Good where
  fields := ⟨by decide, by decide, by decide, by decide, by decide, by decide⟩
  line := by decide +kernel
  eol := .inl rfl
  warc := by
    have e : PyUni.upper exArcTidy.line = lit "HTTP://X/A 1.2.3.4 20050614070200 TEXT/HTML +27" := by decide +kernel
    rw [e]; decide
  extra := by rw [if_neg (by decide)]; rfl
  length := (parseInt_iff _ _).1 (by decide +kernel)
  sep := ⟨by decide, ⟨[], by decide⟩, by decide⟩

open Toy in
theorem exArcTidy_convertible (ids : Nat → Str) : exArcTidy.Convertible (opts ids) 17 (utf8Encode (lit "xy")) where
  good := exArcTidy_good
  ip := ⟨by decide, by decide, by decide⟩
  ctype := ⟨by decide, by decide, by decide⟩
  length := ⟨by decide, by decide, by decide⟩
  file := fun h => absurd h (by decide)
  uri := fun _ => ⟨⟨by decide, by decide, by decide⟩, by decide, noBrackets (by decide)⟩
  splits := by
    have good : GoodHeader (lit "A", lit "b") := ⟨⟨by decide, by decide, by decide, by decide, by decide⟩, by decide, by decide⟩
    have reg : RegularHttp ({ protocol := lit "HTTP/1.1", statusline := lit "200 OK", headers := [(lit "A", lit "b")] } : StatusAndHeaders) := by
      refine ⟨⟨by decide, by decide, by decide, by decide⟩, ⟨by decide, by decide⟩, ?_, .inl (by decide)⟩
      intro x hx
      rw [List.mem_singleton.1 hx]
      exact good
    have http : exArcTidy.Http (opts ids) := ⟨by decide, lit "http://x/a", by show CleanUri _ _; exact .plain _ (noBrackets (by decide)), .inl (by decide)⟩
    have hs := SplitsOf.http (http := exArcTidy.Http (opts ids)) (block := exArcTidy.block) (m := 17) _ (utf8Encode (lit "xy")) http reg (by decide +kernel) (by decide +kernel)
      (.line (by decide +kernel) (by decide +kernel) (.line (by decide +kernel) (by decide +kernel) (.blank (by decide +kernel) (by decide +kernel) (by decide +kernel))))
    exact ⟨_, hs⟩

open Toy in
theorem exArcInfo_convertible (ids : Nat → Str) : exArcInfo.Convertible (opts ids) 17 exArcInfo.block where
  good := exArcInfo_good
  ip := ⟨by decide, by decide, by decide⟩
  ctype := ⟨by decide, by decide, by decide⟩
  length := ⟨by decide, by decide, by decide⟩
  file := fun _ => ⟨by decide, by decide, by decide⟩
  uri := fun h => absurd (by decide) h
  splits := ⟨[], .whole (.inl (fun h => h.1 (by decide)))⟩

open Toy in
/-- The hypotheses of `C70_rewrite_partial` and `C70_recompress_partial`, and of `C70_rewrite_gzip_partial` and `C70_recompress_gzip_partial`. -/
example : (∀ k, ArcRecord.Plain (exUrn k)) ∧ (∀ x ∈ [(exArcInfo, exArcInfo.block), (exArcTidy, utf8Encode (lit "xy"))], x.1.Convertible (opts exUrn) 17 x.2) ∧
    exArcTurn.rest = [exArcInfo, exArcTidy].flatMap ArcRecord.bytes ∧ Reads exArcTurn 16384 17 ∧
    IsMember (compress exArcTidy.bytes) exArcTidy.bytes ∧ ReadsGz { content := compress exArcTidy.bytes } 16384 17 [compress exArcTidy.bytes] ∧ LawfulDeflater IsMember := by
  refine ⟨?_, ?_, rfl, ⟨by decide, by simp [exArcTurn], .inr ⟨rfl, by decide⟩⟩, rfl, (.fit (by decide) rfl (by decide +kernel)), lawfulDeflater⟩
  · intro k
    have : ∀ n < 6, ArcRecord.Plain (lit "<urn:uuid:" ++ (lit "abcdef").take n ++ lit ">") := by
      unfold ArcRecord.Plain; decide
    exact this _ (Nat.mod_lt _ (by decide))
  · intro x hx
    simp only [List.mem_cons, List.not_mem_nil, or_false] at hx
    rcases hx with rfl | rfl
    · exact exArcInfo_convertible _
    · exact exArcTidy_convertible _

open Toy in
/-- What the model does, with the toy digest. -/
example : loadAndWrite { gzip := false } exUrn exArcTurn = (.ok 2, ({} : OutFile).extended (utf8Encode (lit
    "WARC/1.0\r\nWARC-Type: warcinfo\r\nWARC-Record-ID: <urn:uuid:>\r\nWARC-Filename: x.arc\r\nWARC-IP-Address: 0.0.0.0\r\nWARC-Date: 2005-06-14T07:01:59Z\r\nContent-Type: text/plain\r\nContent-Length: 5\r\nWARC-Block-Digest: sha1:AW633PN5XW633PN5XW633PN5XW633PN5\r\n\r\nmore\n\r\n\r\nWARC/1.0\r\nWARC-Type: response\r\nWARC-Record-ID: <urn:uuid:a>\r\nWARC-Target-URI: http://x/a\r\nWARC-IP-Address: 1.2.3.4\r\nWARC-Date: 2005-06-14T07:02:00Z\r\nContent-Type: application/http;msgtype=response\r\nContent-Length: 27\r\nWARC-Payload-Digest: sha1:ALY7D4PR6HY7D4PR6HY7D4PR6HY7D4PR\r\nWARC-Block-Digest: sha1:DOPJ5HU6T2PJ5HU6T2PJ5HU6T2PJ5HU6\r\n\r\nHTTP/1.1 200 OK\r\nA: b\r\n\r\nxy\r\n\r\n"))) := by
  decide +kernel

end Warcio.Props
