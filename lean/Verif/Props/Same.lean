import Verif.Props.Recheck
import Verif.Props.Lookup
import Verif.Spec.Again

/-!
# C85: the index of a recompressed file, and what is extracted from it
-/

namespace Warcio.Props
open Warcio ArchiveIter Recompressor Indexer Extractor

section
variable [PyUni] [Hashlib] [Zlib] [Deflater] {IsMember : Bytes → Bytes → Prop} {IsCoded : DType → Bytes → Bytes → Prop} {f : Bytes → Bytes} {m : Nat}

set_option linter.unusedSectionVars false

theorem payloads_of : ∀ {ls : List Located}, (∀ l ∈ ls, ∃ p, l.record.Rewritable m p) → ∃ xs : List (WarcRecord × Bytes), xs.map (·.1) = ls.map (·.record) ∧ ∀ x ∈ xs, x.1.Rewritable m x.2
  | [], _ => ⟨[], rfl, by simp⟩
  | l :: ls, h => by
    obtain ⟨p, hp⟩ := h l (by simp)
    obtain ⟨xs, h1, h2⟩ := payloads_of (fun l hl => h l (List.mem_cons_of_mem _ hl))
    refine ⟨(l.record, p) :: xs, by rw [List.map_cons, h1]; rfl, ?_⟩
    intro x hx
    rcases List.mem_cons.1 hx with rfl | hx
    · exact hp
    · exact h2 x hx

theorem members_of : ∀ {xs : List (WarcRecord × Bytes)} {ys : List (Bytes × WarcRecord × Option StatusAndHeaders)}, xs.map (·.1) = ys.map (·.2.1) → (∀ y ∈ ys, IsMember y.1 y.2.1.bytes) →
    Each (fun x z => IsMember z x.1.bytes) xs (ys.map (·.1))
  | [], [], _, _ => .nil
  | [], _ :: _, h, _ => by cases h
  | _ :: _, [], h, _ => by cases h
  | x :: xs, y :: ys, h, hy => by
    simp only [List.map_cons, List.cons.injEq] at h
    refine .cons ?_ (members_of h.2 (fun y h => hy y (List.mem_cons_of_mem _ h)))
    rw [h.1]
    exact hy y (List.mem_cons_self ..)

theorem out_parts : ∀ {xs : List (WarcRecord × Bytes)} {out : List (Bytes × WarcRecord)} {ls : List Located}, Copied IsMember f true xs out → (∀ x ∈ xs, x.1.Rewritable m x.2) →
    xs.map (·.1) = ls.map (·.record) → ∃ ts : List (Bytes × WarcRecord × Option StatusAndHeaders), ts.map (fun t => (t.1, t.2.1)) = out ∧
      ∀ off, Each (fun l l' : Located => ∃ p, l.record.Rewritable m p ∧ l.record.Rewritten f p l'.record ∧ l'.http = l.http) ls (placementsGz off ts)
  | _, _, [], .nil, _, _ => ⟨[], rfl, fun _ => .nil⟩
  | _, _, _ :: _, .nil, _, h => by cases h
  | _ :: _, _ :: _, [], _, _, h => by cases h
  | x :: xs, y :: out, l :: ls, .cons h1 h2, hw, h => by
    simp only [List.map_cons, List.cons.injEq] at h
    obtain ⟨ts, k1, k2⟩ := out_parts h2 (fun x hx => hw x (List.mem_cons_of_mem _ hx)) h.2
    refine ⟨(y.1, y.2, l.http) :: ts, by rw [List.map_cons, k1], fun off => ?_⟩
    rw [placementsGz]
    have hx := hw x (List.mem_cons_self ..)
    have h3 := h1.1
    rw [h.1] at hx h3
    exact .cons ⟨x.2, hx, h3, rfl⟩ (k2 _)

/-- An archive, compressed or not, is recompressed: the new file is an archive of the rewritten records. -/
theorem archived_again (L : LawfulGzip IsMember) (D : LawfulDeflater IsMember) (H : Hashlib.hash (lit "sha1") = some f) {c : BuilderCfg} (hf : c.filter = some) (hc : c.gzip = true)
    {g : FileObj} {ls : List Located} (ha : Archived IsMember m g ls) (hne : ls ≠ []) (hw : ∀ l ∈ ls, ∃ p, l.record.Rewritable m p) (ids : Nat → Str) (again : List Nat) :
    ∃ zs : List Bytes, zs.length = ls.length ∧ recompress c ids g again = (.noErrors ls.length, ({} : OutFile).extended zs.flatten) ∧
      ∀ {g' : FileObj}, g'.rest = zs.flatten → ReadsGz g' 16384 m zs → ∃ ls', Archived IsMember m g' ls' ∧
        Each (fun l l' : Located => ∃ p, l.record.Rewritable m p ∧ l.record.Rewritten f p l'.record ∧ l'.http = l.http) ls ls' := by
  obtain ⟨xs, x1, x2⟩ := payloads_of hw
  have hl : xs.length = ls.length := by simpa using congrArg List.length x1
  have hne' : xs ≠ [] := by
    rintro rfl
    exact hne (List.length_eq_zero_iff.1 hl.symm)
  have key : ∃ out, Copied IsMember f true xs out ∧ recompress c ids g again = (.noErrors xs.length, ({} : OutFile).extended (out.flatMap (·.1))) := by
    cases ha with
    | plain ys h1 h2 h3 =>
      rw [placements_records] at x1
      refine C60_plain L D H hf hc x2 ?_ h3 ids again
      rw [h2, ← List.flatMap_map (f := fun y : WarcRecord × Option StatusAndHeaders => y.1) (g := WarcRecord.bytes), ← x1, List.flatMap_map]
    | gzip ys h0 h1 h2 h3 =>
      rw [placementsGz_records] at x1
      exact C60_gzip L D H hf hc hne' x2 (members_of x1 (fun y hy => (h1 y hy).2)) (by rw [h2]; rfl) h3 ids again
  obtain ⟨out, o1, o2⟩ := key
  obtain ⟨ts, t1, t2⟩ := out_parts o1 x2 x1
  have e : out.map (·.1) = ts.map (·.1) := by rw [← t1, List.map_map]; rfl
  refine ⟨out.map (·.1), by rw [List.length_map, each_len o1, hl], by rw [o2, hl]; rfl, ?_⟩
  intro g' h1 h2
  refine ⟨_, .gzip g' ts ?_ ?_ ?_ (by rw [← e]; exact h2), t2 _⟩
  · rintro rfl
    rw [← t1] at o1
    cases xs with
    | nil => exact hne' rfl
    | cons _ _ => cases o1
  · intro t ht
    have := copied_stored o1 (t.1, t.2.1) (by rw [← t1]; exact List.mem_map.2 ⟨t, ht, rfl⟩)
    exact this
  · rw [h1, e]; rfl

theorem lasting_field {l l' : Located} {p : Bytes} (hr : l.record.Rewritten f p l'.record) (hh : l'.http = l.http) {n : Str} (hn : Lasting n) (a b : Str) : l'.field b n = l.field a n := by
  unfold Located.field
  rw [if_neg hn.place.1, if_neg hn.place.1, if_neg hn.place.2.1, if_neg hn.place.2.1, if_neg hn.place.2.2, if_neg hn.place.2.2, hh, Rewritten.value hr hn.length hn.payload hn.block,
    Rewritten.value hr (differ (by decide) (by decide) (by decide)) (differ (by decide) (by decide) (by decide)) (differ (by decide) (by decide) (by decide))]

theorem lasting_entry {l l' : Located} {p : Bytes} (hr : l.record.Rewritten f p l'.record) (hh : l'.http = l.http) {fields : List Str} (hn : ∀ n ∈ fields, Lasting n) (a b : Str) :
    l'.entry b fields = l.entry a fields := by
  unfold Located.entry
  have : ∀ ns : List Str, (∀ n ∈ ns, Lasting n) → ns.filterMap (fun n => (l'.field b n).map (fun v => (n, v))) = ns.filterMap (fun n => (l.field a n).map (fun v => (n, v))) := by
    intro ns
    induction ns with
    | nil => intro _; rfl
    | cons n ns ih =>
      intro h
      rw [List.filterMap_cons, List.filterMap_cons, ih (fun n hn => h n (List.mem_cons_of_mem _ hn)), lasting_field hr hh (h n (List.mem_cons_self ..)) a b]
  exact this _ (fun n hn' => hn n (List.mem_eraseDups.1 hn'))

theorem lasting_entries {fields : List Str} (hn : ∀ n ∈ fields, Lasting n) (a b : Str) : ∀ {ls ls' : List Located},
    Each (fun l l' : Located => ∃ p, l.record.Rewritable m p ∧ l.record.Rewritten f p l'.record ∧ l'.http = l.http) ls ls' → ls'.map (fun l => l.entry b fields) = ls.map (fun l => l.entry a fields)
  | _, _, .nil => rfl
  | _, _, .cons ⟨_, _, h1, h2⟩ h3 => by rw [List.map_cons, List.map_cons, lasting_entries hn a b h3, lasting_entry h1 h2 hn a b]

theorem named_uri {l l' : Located} {p : Bytes} (hr : l.record.Rewritten f p l'.record) (h : AtMostOne (lit "WARC-Target-URI") l.record.headers) : AtMostOne (lit "WARC-Target-URI") l'.record.headers := by
  obtain ⟨pd, bd, e, h1, h2⟩ := NewHeaders.parts hr.headers
  have n1 : PyUni.lower (lit "WARC-Payload-Digest") ≠ PyUni.lower (lit "WARC-Target-URI") := differ (by decide) (by decide) (by decide)
  have n2 : PyUni.lower (lit "WARC-Block-Digest") ≠ PyUni.lower (lit "WARC-Target-URI") := differ (by decide) (by decide) (by decide)
  rw [e]
  refine atMostOne_append (atMostOne_append ?_ ?_) ?_
  · exact Nat.le_trans (Nat.le_of_eq (filter_setLength _ _ _)) h
  · rcases h1 with rfl | rfl
    · rfl
    · simp [StatusAndHeaders.nameEq_other n1 (StatusAndHeaders.nameEq_self _ _)]
  · rcases h2 with rfl | rfl
    · rfl
    · simp [StatusAndHeaders.nameEq_other n2 (StatusAndHeaders.nameEq_self _ _)]

theorem http_same {w w' : WarcRecord} {p : Bytes} (h : w.Rewritten f p w') : w'.Http = w.Http := by
  unfold WarcRecord.Http
  rw [Rewritten.value h (differ (by decide) (by decide) (by decide)) (differ (by decide) (by decide) (by decide)) (differ (by decide) (by decide) (by decide)),
    Rewritten.value h (differ (by decide) (by decide) (by decide)) (differ (by decide) (by decide) (by decide)) (differ (by decide) (by decide) (by decide))]

theorem indexable_again {l l' : Located} {p : Bytes} (hr : l.record.Rewritten f p l'.record) (hh : l'.http = l.http) {fields : List Str} (h : Indexable fields m l) : Indexable fields m l' where
  http hx := by
    have := h.http hx
    unfold WarcRecord.HttpPart at this ⊢
    rw [hr.block, http_same hr, hh]
    exact this
  uri hx := named_uri hr (h.uri hx)

/-- C85: an archive, compressed or not, is recompressed.  For any fields that say something about the records (not the position, the name of the file, the digests
and the length), `warcio index` prints the same text for the new file as for the old one.
Partial: records that can be rewritten without loss, not more than one URI, HTTP headers in a regular form. -/
theorem C85_index_partial (L : LawfulGzip IsMember) (D : LawfulDeflater IsMember) (H : Hashlib.hash (lit "sha1") = some f) {c : BuilderCfg} (hf : c.filter = some) (hc : c.gzip = true)
    {g : FileObj} {ls : List Located} (ha : Archived IsMember m g ls) (hne : ls ≠ []) (hw : ∀ l ∈ ls, ∃ p, l.record.Rewritable m p) (ids : Nat → Str) (again : List Nat) :
    ∃ zs : List Bytes, zs.length = ls.length ∧ recompress c ids g again = (.noErrors ls.length, ({} : OutFile).extended zs.flatten) ∧
      ∀ {g' : FileObj}, g'.rest = zs.flatten → ReadsGz g' 16384 m zs → ∀ {fields : List Str}, (∀ n ∈ fields, Lasting n) → (∀ l ∈ ls, Indexable fields m l) → ∀ ids ids' file file',
        index fields false ids [(file, g)] = index fields false ids' [(file', g')] ∧ (index fields false ids [(file, g)]).1 = .ok () := by
  obtain ⟨zs, o0, o1, o2⟩ := archived_again L D H hf hc ha hne hw ids again
  refine ⟨zs, o0, o1, ?_⟩
  intro g' h1 h2 fields hn hx ids ids' file file'
  obtain ⟨ls', k1, k2⟩ := o2 h1 h2
  have hx' : ∀ l' ∈ ls', Indexable fields m l' := by
    intro l' hl'
    obtain ⟨l, hl, p, q1, q2, q3⟩ := each_right k2 l' hl'
    exact indexable_again q2 q3 (hx l hl)
  have e1 := C58_entries L ha hx (basename_spec file) ids
  have e2 := C58_entries L k1 hx' (basename_spec file') ids'
  rw [lasting_entries hn (basename file) (basename file') k2] at e2
  have i1 : index fields false ids [(file, g)] = (.ok (), (ls.map (fun l => l.entry (basename file) fields)).flatMap jsonLine ++ []) := by
    unfold index
    rw [e1]
    rfl
  have i2 : index fields false ids' [(file', g')] = (.ok (), (ls.map (fun l => l.entry (basename file) fields)).flatMap jsonLine ++ []) := by
    unfold index
    rw [e2]
    rfl
  exact ⟨i1.trans i2.symm, by rw [i1]⟩

theorem printed_again {l l' : Located} {p : Bytes} (hr : l.record.Rewritten f p l'.record) {ho : Bool} {out : Bytes} (h : Printed IsCoded l.record m true ho out) : Printed IsCoded l'.record m true ho out := by
  cases h with
  | payload _ _ h1 h2 =>
    refine .payload ho out (by rw [http_same hr]; exact h1) ?_
    unfold WarcRecord.Content at h2 ⊢
    rw [http_same hr, hr.block]
    exact h2

/-- With the offsets in these two lines of indexes, the same payload is printed for the two files. -/
def SamePayload (g g' : FileObj) (line line' : Str) : Prop :=
  ∃ entry entry' offset offset' data, Json.object line = some (entry, []) ∧ Json.object line' = some (entry', []) ∧ entry.lookup (lit "offset") = some offset ∧ entry'.lookup (lit "offset") = some offset' ∧
    extractAt g offset true false = (.ok (), data) ∧ extractAt g' offset' true false = (.ok (), data)

theorem each_join {α β γ : Type} {R : α → β → Prop} {S : α → γ → Prop} {T : β → γ → Prop} (h : ∀ a b c, R a b → S a c → T b c) : ∀ {as : List α} {bs : List β} {cs : List γ}, Each R as bs → Each S as cs → Each T bs cs
  | _, _, _, .nil, .nil => .nil
  | _, _, _, .cons h1 h2, .cons h3 h4 => .cons (h _ _ _ h1 h3) (each_join h h2 h4)

theorem each_swap {α β : Type} {R : α → β → Prop} : ∀ {as : List α} {bs : List β}, Each R as bs → Each (fun b a => R a b) bs as
  | _, _, .nil => .nil
  | _, _, .cons h1 h2 => .cons h1 (each_swap h2)

/-- C85: an archive, compressed or not, is recompressed.  Both files have an index with as many lines as there are records; the offset in a line for the old file and the
offset in the line for the new file, given to `warcio extract --payload`, make it print the same content of the payload.
Partial: as C58, C59 and C60. -/
theorem C85_extract_partial (L : LawfulGzip IsMember) (D : LawfulDeflater IsMember) (LC : LawfulCodecs IsCoded) (H : Hashlib.hash (lit "sha1") = some f) {c : BuilderCfg} (hf : c.filter = some) (hc : c.gzip = true)
    {g : FileObj} (h0 : g.pos = 0) (hs : g.seekable = true) {ls : List Located} (ha : Archived IsMember m g ls) (hne : ls ≠ [])
    (hw : ∀ l ∈ ls, (∃ p, l.record.Rewritable m p) ∧ ∃ data, Printed IsCoded l.record m true false data) (ids : Nat → Str) (again : List Nat) :
    ∃ zs : List Bytes, zs.length = ls.length ∧ recompress c ids g again = (.noErrors ls.length, ({} : OutFile).extended zs.flatten) ∧
      ∀ {g' : FileObj}, g'.pos = 0 → g'.seekable = true → g'.rest = zs.flatten → ReadsGz g' 16384 m zs → ∀ {fields : List Str}, lit "offset" ∈ fields → (∀ l ∈ ls, Indexable fields m l) → ∀ ids ids' file file',
        ∃ lines lines' : List Str, lines.length = ls.length ∧ index fields false ids [(file, g)] = (.ok (), lines.flatMap (fun l => l ++ ['\n'])) ∧
          index fields false ids' [(file', g')] = (.ok (), lines'.flatMap (fun l => l ++ ['\n'])) ∧
          Each (SamePayload g g') lines lines' := by
  obtain ⟨zs, o0, o1, o2⟩ := archived_again L D H hf hc ha hne (fun l hl => (hw l hl).1) ids again
  refine ⟨zs, o0, o1, ?_⟩
  intro g' p0 ps h1 h2 fields hfo hx ids ids' file file'
  obtain ⟨ls', k1, k2⟩ := o2 h1 h2
  have hx' : ∀ l' ∈ ls', Indexable fields m l' := by
    intro l' hl'
    obtain ⟨l, hl, p, q1, q2, q3⟩ := each_right k2 l' hl'
    exact indexable_again q2 q3 (hx l hl)
  obtain ⟨lines, i1, i2⟩ := C73_lookup_partial L LC ha h0 hs hfo hx (basename_spec file) ids
  obtain ⟨lines', j1, j2⟩ := C73_lookup_partial L LC k1 p0 ps hfo hx' (basename_spec file') ids'
  refine ⟨lines, lines', (each_len i2).symm, i1, j1, ?_⟩
  have i3 := each_mem i2 (R' := fun line x => ∃ entry offset, Json.object line = some (entry, []) ∧ entry.lookup (lit "offset") = some offset ∧
    ∃ data, Printed IsCoded x.record m true false data ∧ extractAt g offset true false = (.ok (), data) ) (by
    rintro line x hx' ⟨-, entry, offset, a1, a2, a3⟩
    obtain ⟨data, hd⟩ := (hw x hx').2
    exact ⟨entry, offset, a1, a2, data, hd, a3 _ _ _ hd⟩)
  have i4 := each_join (T := fun line l' => ∃ entry offset, Json.object line = some (entry, []) ∧ entry.lookup (lit "offset") = some offset ∧
    ∃ data, Printed IsCoded l'.record m true false data ∧ extractAt g offset true false = (.ok (), data)) (by
    rintro l line l' ⟨entry, offset, a1, a2, data, a3, a4⟩ ⟨p, -, b1, -⟩
    exact ⟨entry, offset, a1, a2, data, printed_again b1 a3, a4⟩) (each_swap i3) k2
  refine each_join ?_ (each_swap i4) (each_swap j2)
  rintro l' line line' ⟨entry, offset, a1, a2, data, a3, a4⟩ ⟨-, entry', offset', b1, b2, b3⟩
  have b4 := b3 _ _ _ a3
  exact ⟨entry, entry', offset, offset', data, a1, b1, a2, b2, a4, b4⟩

open Cli in
/-- C85 at the command line: after `warcio recompress a b`, `warcio index -f fields a` and `warcio index -f fields b` print the same.  Partial as `C85_index_partial`. -/
theorem C85_cli_partial (L : LawfulGzip IsMember) (D : LawfulDeflater IsMember) (H : Hashlib.hash (lit "sha1") = some f) (ids : Nat → Str) {a b : Str} (ha : FileName a) (hb : FileName b) (hab : a ≠ b)
    {w : World} (hwb : w.writable b = true) {content : Bytes} (h : w.files a = some content) {ls : List Located} (hl : Archived IsMember m { content := content } ls) (hne : ls ≠ [])
    (hw : ∀ l ∈ ls, ∃ p, l.record.Rewritable m p) :
    let (x, w') := run ids (.recompress a b false) w
    x = .done ∧ ∃ zs : List Bytes, zs.length = ls.length ∧ w'.files b = some zs.flatten ∧
      (m = 0 ∨ (∀ z ∈ zs, Steady 16384 m z) → ∀ {fields : Str}, (∀ n ∈ splitComma fields, Lasting n) → (∀ l ∈ ls, Indexable (splitComma fields) m l) →
        ∃ t, run ids (.index [a] fields none) w' = (.done, w'.print [.text t]) ∧ run ids (.index [b] fields none) w' = (.done, w'.print [.text t])) := by
  obtain ⟨zs, o0, o1, o2⟩ := C85_index_partial L D H (c := { gzip := true }) rfl rfl hl hne hw ids []
  have key := C82_recompress ids ha hb hab hwb h
  rw [o1] at key
  dsimp only at key
  have hfr := (C82_inputs_partial ids w).1 a b false hab
  generalize Cli.run ids (.recompress a b false) w = y at key hfr ⊢
  obtain ⟨x, w'⟩ := y
  dsimp only at key hfr ⊢
  have hc : w'.files b = some zs.flatten := by rw [key.1]; rfl
  refine ⟨congrArg Prod.fst key.2, zs, o0, hc, ?_⟩
  intro hz fields hn hx
  obtain ⟨i1, i2⟩ := o2 (g' := { content := zs.flatten }) (by simp [FileObj.rest]) ⟨by decide, hz.imp id (fun h => ⟨rfl, h⟩)⟩ hn hx ids ids a b
  have c1 := C82_index ids (w := w') (fs := [(a, content)]) (by simp) (by intro f hf; rw [List.mem_singleton.1 hf]; exact ⟨ha, hfr.trans h⟩) fields none (by simp) (by simp)
  have c2 := C82_index ids (w := w') (fs := [(b, zs.flatten)]) (by simp) (by intro f hf; rw [List.mem_singleton.1 hf]; exact ⟨hb, hc⟩) fields none (by simp) (by simp)
  simp only [List.map_cons, List.map_nil] at c1 c2
  rw [← i1] at c2
  rw [i2] at c1 c2
  exact ⟨_, c1, c2⟩

end

section
open Toy

/-- Some fields that are kept. -/
def exLasting : List Str := [lit "warc-type", lit "http:status", lit "http:a", lit "no"]

theorem exLasting_lasting : ∀ n ∈ exLasting, Lasting n := by
  intro n hn
  simp only [exLasting, List.mem_cons, List.not_mem_nil, or_false] at hn
  rcases hn with rfl | rfl | rfl | rfl <;> exact ⟨by decide, by decide, by decide, by decide⟩

theorem part_mono {http : Prop} {b : Bytes} {h : Option StatusAndHeaders} {m n : Nat} (hm : m ≤ n) (hp : HttpPartOf http b m h) : HttpPartOf http b n h := by
  cases hp with
  | none h0 => exact .none h0
  | head x p h1 h2 h3 h4 h5 => exact .head x p h1 (within_mono h2 hm) h3 h4 h5

/-- The hypotheses of `C85_index_partial`, `C85_extract_partial` and `C85_cli_partial`. -/
example : ∃ ls : List Located, Archived IsMember 64 exFile ls ∧ ls ≠ [] ∧ exFile.pos = 0 ∧ exFile.seekable = true ∧ lit "offset" ∈ exFields ∧ (∀ n ∈ exLasting, Lasting n) ∧
    ∀ l ∈ ls, (∃ p, l.record.Rewritable 64 p) ∧ (∃ data, Printed toyCoded l.record 64 true false data) ∧ Indexable exLasting 64 l ∧ Indexable exFields 64 l := by
  have nouri : ¬ ∃ n ∈ exFields, PyUni.lower n = PyUni.lower (lit "WARC-Target-URI") := by decide
  have nouri' : ¬ ∃ n ∈ exLasting, PyUni.lower n = PyUni.lower (lit "WARC-Target-URI") := by decide
  refine ⟨placements exFile.origin [(exHttp, some exHttpHead), (exInfo, none)], .plain exFile [(exHttp, some exHttpHead), (exInfo, none)] ?_ rfl ⟨by decide, by simp [exFile], .inr ⟨rfl, by decide⟩⟩,
    by simp [placements], rfl, rfl, by decide, exLasting_lasting, ?_⟩
  · intro x hx
    simp only [List.mem_cons, List.not_mem_nil, or_false] at hx
    rcases hx with rfl | rfl
    · exact exHttp_good
    · exact exInfo_good
  · intro x hx
    simp only [placements, List.mem_cons, List.not_mem_nil, or_false] at hx
    rcases hx with rfl | rfl
    · obtain ⟨d, hd⟩ := exHttp_checkable.content
      exact ⟨⟨_, rewritable_mono exHttp_rewritable (by decide)⟩, ⟨d, .payload _ _ (fun _ => Nat.le_refl _) hd⟩, ⟨fun _ => part_mono (by decide) exHttp_part, fun h => absurd h nouri'⟩,
        fun _ => part_mono (by decide) exHttp_part, fun h => absurd h nouri⟩
    · obtain ⟨d, hd⟩ := (exInfo_checkable 64).content
      exact ⟨⟨_, exInfo_rewritable 64⟩, ⟨d, .payload _ _ (fun _ => Nat.le_refl _) hd⟩, ⟨fun _ => exInfo_part 64, fun h => absurd h nouri'⟩, fun _ => exInfo_part 64, fun h => absurd h nouri⟩

end

end Warcio.Props
