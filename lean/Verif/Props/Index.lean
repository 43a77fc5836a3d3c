import Verif.Props.Content
import Verif.Props.Recompress
import Verif.Proofs.Index
import Verif.Proofs.Json

/-!
# Property C58: `warcio index`

`Located.entry` (`Verif/Spec/Index.lean`) says what the entry of a record is; `Json.object`
(`Verif/Spec/Json.lean`) reads a line.
-/

set_option linter.unusedSectionVars false

namespace Warcio.Props

open Warcio ArchiveIter Indexer

section
variable [PyUni] [Hashlib] [Zlib] {IsMember : Bytes → Bytes → Prop}

/-- What is needed for these fields: HTTP headers with lines of at most `m` bytes, and not more than one URI, if they are
asked for. -/
structure Indexable (fields : List Str) (m : Nat) (x : Located) : Prop where
  http : (∃ n ∈ fields, lit "http:" <+: n) → x.record.HttpPart m x.http
  uri : (∃ n ∈ fields, PyUni.lower n = PyUni.lower (lit "WARC-Target-URI")) → AtMostOne (lit "WARC-Target-URI") x.record.headers

/-- A file with these records: one after the other, or each in a gzip member. -/
inductive Archived (IsMember : Bytes → Bytes → Prop) (m : Nat) : FileObj → List Located → Prop
  | plain (f : FileObj) (xs : List (WarcRecord × Option StatusAndHeaders)) : (∀ x ∈ xs, x.1.Good) → f.rest = xs.flatMap (·.1.bytes) → Reads f 16384 m →
      Archived IsMember m f (placements f.origin xs)
  | gzip (f : FileObj) (xs : List (Bytes × WarcRecord × Option StatusAndHeaders)) : xs ≠ [] → (∀ x ∈ xs, x.2.1.Good ∧ IsMember x.1 x.2.1.bytes) → f.rest = xs.flatMap (·.1) →
      ReadsGz f 16384 m (xs.map (·.1)) → Archived IsMember m f (placementsGz f.origin xs)

theorem placed_of (io : IterOpts) (m : Nat) : ∀ (xs : List (WarcRecord × Option StatusAndHeaders)) (off : Int),
    WarcRecord.placed io m off (xs.map (·.1)) = (placements off xs).map (fun x => x.record.expected io m x.offset x.size)
  | [], _ => rfl
  | (w, h) :: xs, off => by
    rw [List.map_cons, WarcRecord.placed, placed_of io m xs, placements, List.map_cons]
    simp [len]

theorem placedGz_of (io : IterOpts) (m : Nat) : ∀ (xs : List (Bytes × WarcRecord × Option StatusAndHeaders)) (off : Int),
    WarcRecord.placedGz io m off (xs.map (fun x => (x.1, x.2.1))) = (placementsGz off xs).map (fun x => x.record.expected io m x.offset x.size)
  | [], _ => rfl
  | (z, w, h) :: xs, off => by
    rw [List.map_cons, WarcRecord.placedGz, placedGz_of io m xs, placementsGz, List.map_cons]

theorem placements_length : ∀ (xs : List (WarcRecord × Option StatusAndHeaders)) (off : Int), (placements off xs).length = xs.length
  | [], _ => rfl
  | (w, h) :: xs, off => by rw [placements, List.length_cons, placements_length xs, List.length_cons]

theorem placementsGz_length : ∀ (xs : List (Bytes × WarcRecord × Option StatusAndHeaders)) (off : Int), (placementsGz off xs).length = xs.length
  | [], _ => rfl
  | (z, w, h) :: xs, off => by rw [placementsGz, List.length_cons, placementsGz_length xs, List.length_cons]

theorem each_append {α β : Type} {R : α → β → Prop} {as as' : List α} {bs bs' : List β} (h : Each R as bs) (h' : Each R as' bs') : Each R (as ++ as') (bs ++ bs') := by
  induction h with
  | nil => exact h'
  | cons h1 _ ih => exact .cons h1 ih

theorem placements_mem : ∀ (xs : List (WarcRecord × Option StatusAndHeaders)) (off : Int) (x), x ∈ xs → ∃ y ∈ placements off xs, y.record = x.1
  | (w, h) :: xs, off, x, hx => by
    rw [placements]
    rcases List.mem_cons.1 hx with rfl | hx
    · exact ⟨_, .head _, rfl⟩
    · obtain ⟨y, h1, h2⟩ := placements_mem xs _ x hx
      exact ⟨y, .tail _ h1, h2⟩

theorem placementsGz_mem : ∀ (xs : List (Bytes × WarcRecord × Option StatusAndHeaders)) (off : Int) (x), x ∈ xs → ∃ y ∈ placementsGz off xs, y.record = x.2.1
  | (z, w, h) :: xs, off, x, hx => by
    rw [placementsGz]
    rcases List.mem_cons.1 hx with rfl | hx
    · exact ⟨_, .head _, rfl⟩
    · obtain ⟨y, h1, h2⟩ := placementsGz_mem xs _ x hx
      exact ⟨y, .tail _ h1, h2⟩

/-- Opening it. -/
theorem archived_ready (L : LawfulGzip IsMember) {m : Nat} {f : FileObj} {xs : List Located} (h : Archived IsMember m f xs) {io : IterOpts} (hv : io.verifyHttp = false) (hd : ∀ x ∈ xs, Quiet { checkDigests := io.checkDigests } x.record.headers) :
    ∃ it, openArchive f io = .ok it ∧ Ready false (some .stopIteration) it (xs.map (fun x => x.record.expected io m x.offset x.size)) ∧
      xs.length ≤ f.rest.length := by
  cases h with
  | plain xs h1 h2 h3 =>
    have hg : ∀ w ∈ xs.map (·.1), w.Good := by
      intro w hw
      obtain ⟨x, hx, rfl⟩ := List.mem_map.1 hw
      exact h1 x hx
    have hfit : Fit io (xs.map (·.1)) := ⟨hg, fun w hw => by
      obtain ⟨x, hx, rfl⟩ := List.mem_map.1 hw
      obtain ⟨y, hy, e⟩ := placements_mem xs f.origin x hx
      rw [← e]; exact hd y hy, hv⟩
    have hrest : f.rest = (xs.map (·.1)).flatMap WarcRecord.bytes ++ [] := by rw [h2, List.append_nil, List.flatMap_map]
    have hne : f.rest ≠ [] → xs.map (·.1) ≠ [] := by
      intro h h0
      rw [hrest, h0] at h
      exact h rfl
    obtain ⟨it, k1, k2⟩ := plain_ready L hfit hrest (.inl rfl) (fun h => by rw [hrest]; exact two_le hg (hne h) _)
      (by by_cases h : f.rest = []
          · rw [h]; decide
          · rw [hrest]; exact no_magic hg (hne h) _) h3 (kf := none) (by simp)
    refine ⟨it, k1, ?_, ?_⟩
    · rw [← placed_of]; rwa [if_pos rfl] at k2
    · rw [placements_length, h2]
      clear hne h2 hrest k1 k2 hfit hg hd
      induction xs with
      | nil => simp
      | cons x xs ih =>
        have := ih (fun y hy => h1 y (by simp [hy]))
        have hx : 0 < x.1.bytes.length := by
          have := (h1 x (by simp)).sep.1
          have := List.length_pos_iff.2 this
          simp only [WarcRecord.bytes, List.length_append]; omega
        simp only [List.length_cons, List.flatMap_cons, List.length_append]; omega
  | gzip xs h0 h1 h2 h3 =>
    have hfit : Fit io ((xs.map (fun x => (x.1, x.2.1))).map (·.2)) := ⟨by
      intro w hw
      rw [List.map_map] at hw
      obtain ⟨x, hx, rfl⟩ := List.mem_map.1 hw
      exact (h1 x hx).1, by
      intro w hw
      rw [List.map_map] at hw
      obtain ⟨x, hx, rfl⟩ := List.mem_map.1 hw
      obtain ⟨y, hy, e⟩ := placementsGz_mem xs f.origin x hx
      rw [show ((·.2) ∘ fun x : Bytes × WarcRecord × Option StatusAndHeaders => (x.1, x.2.1)) x = x.2.1 from rfl, ← e]; exact hd y hy, hv⟩
    obtain ⟨it, k1, k2⟩ := gz_ready L hfit (by
      intro y hy
      obtain ⟨x, hx, rfl⟩ := List.mem_map.1 hy
      exact (h1 x hx).2) (tl := []) (by rw [h2, List.append_nil, List.flatMap_map]) (by simpa using h0) (by rw [List.map_map]; exact h3) (kf := none) (by simp)
    refine ⟨it, k1, ?_, ?_⟩
    · rw [← placedGz_of]; rwa [if_pos rfl] at k2
    · rw [placementsGz_length, h2]
      clear h2 k1 k2 hfit h3 h0 hd
      induction xs with
      | nil => simp
      | cons x xs ih =>
        have := ih (fun y hy => h1 y (by simp [hy]))
        have hx : 0 < x.1.length := by have := (L.magic (h1 x (by simp)).2).length_le; simp at this; omega
        simp only [List.length_cons, List.flatMap_cons, List.length_append]; omega

/-- What is expected next is shown as a record of the index. -/
def Indexes (fields : List Str) (ids : Nat → Str) (m : Nat) {α : Type} (R : α → Located → Prop) (a : α) (e : Expected) : Prop :=
  ∀ rec left, e.shows rec left → ∃ x : Located, R a x ∧ x.record.Shows (opts fields false ids) m rec left ∧ e.off = x.offset ∧ e.size = x.size ∧ Indexable fields m x

/-- The loop of `process_one`. -/
theorem indexLoop_shown {σ : Type} [PyStream σ] {file base : Str} (hb : IsBasename file base) {fields : List Str} {m : Nat} {ids : Nat → Str} {multi : Bool} (hm : multi = true → lit "length" ∉ fields) {l : PyErr}
    {α : Type} {R : α → Located → Prop} : ∀ (as : List α) (es : List Expected) (fuel : Nat) {it : ArchiveIter σ}, Ready multi (some l) it es → Each (Indexes fields ids m R) as es → as.length < fuel →
    ∃ xs, Each R as xs ∧ indexLoop file fields fuel it = (if l = .stopIteration then .ok () else .error l, xs.map (fun x => x.entry base fields))
  | _, _, 0, _, _, _, h => by omega
  | [], _, fuel + 1, it, h, he, _ => by
    cases he
    obtain ⟨it', k⟩ := Ready.stop h
    refine ⟨[], .nil, ?_⟩
    unfold indexLoop
    rw [k]
    cases l <;> rfl
  | a :: as, [], fuel + 1, it, h, he, hf => by cases he
  | a :: as, e :: es, fuel + 1, it, h, he, hf => by
    have ha : Indexes fields ids m R a e := by cases he; assumption
    have has : Each (Indexes fields ids m R) as es := by cases he; assumption
    obtain ⟨it', rec, left, k1, k2, k3, k4⟩ := Ready.record h
    obtain ⟨x, x1, x2, x3, x4, x5⟩ := ha rec left k3
    have hsw : ∀ n, startsWith (lit "http:") n = true ↔ lit "http:" <+: n := fun n => by unfold startsWith; exact List.isPrefixOf_iff_prefix
    obtain ⟨it2, left2, m1, m2⟩ := entry_spec (val := x.field base) fields [] [] k4
      (fun n hn => getField_gives x2 x3 x4 hb
        (fun hp => ⟨by
          show (!fields.any (startsWith (lit "http:"))) = false
          rw [Bool.not_eq_false', List.any_eq_true]
          exact ⟨n, hn, (hsw n).2 hp⟩, rfl, x5.http ⟨n, hn, hp⟩⟩)
        (fun hl => x5.uri ⟨n, hn, hl⟩) (fun h0 h1 => hm h0 (h1 ▸ hn))) (by simp) (by simp) (by simp)
    obtain ⟨xs, q1, q2⟩ := indexLoop_shown hb hm as es fuel m2.ready has (by simp at hf; omega)
    refine ⟨x :: xs, .cons x1 q1, ?_⟩
    unfold indexLoop
    rw [k1]
    dsimp only
    rw [k2]
    dsimp only
    rw [m1]
    dsimp only
    rw [q2]
    have hf : fields.filter (fun n => !([] : List Str).contains n) = fields := by
      rw [List.filter_eq_self]; simp
    rw [hf]
    rfl

theorem indexes_located {fields : List Str} {ids : Nat → Str} {m : Nat} : ∀ (xs : List Located), (∀ x ∈ xs, Indexable fields m x) →
    Each (Indexes fields ids m (fun a x => x = a)) xs (xs.map (fun x => x.record.expected (opts fields false ids) m x.offset x.size))
  | [], _ => .nil
  | x :: xs, h => .cons (fun _ _ hs => ⟨x, rfl, hs, rfl, rfl, h x (.head _)⟩) (indexes_located xs (fun y hy => h y (.tail _ hy)))

theorem each_eq {α : Type} : ∀ {as xs : List α}, Each (fun a x => x = a) as xs → xs = as
  | _, _, .nil => rfl
  | _, _, .cons h1 h2 => by rw [h1, each_eq h2]

/-- The entries of a file. -/
theorem C58_entries (L : LawfulGzip IsMember) {m : Nat} {f : FileObj} {xs : List Located} (ha : Archived IsMember m f xs) {fields : List Str} (hx : ∀ x ∈ xs, Indexable fields m x)
    {file base : Str} (hb : IsBasename file base) (ids : Nat → Str) : indexFile fields false ids file f = (.ok (), xs.map (fun x => x.entry base fields)) := by
  obtain ⟨it, k1, k2, k3⟩ := archived_ready L ha (io := opts fields false ids) rfl (fun _ _ => .inl rfl)
  unfold indexFile
  rw [k1]
  obtain ⟨xs', q1, q2⟩ := indexLoop_shown hb (fun h => by cases h) xs _ (PyStream.bound it.reader + 2) k2 (indexes_located xs hx) (by have := open_bound k1; omega)
  rw [each_eq q1] at q2
  exact q2

/-- A gzip member with several records: there is a line for the first of them, and then the error is raised. -/
theorem C58_member (L : LawfulGzip IsMember) {m : Nat} {f : FileObj} {w w' : WarcRecord} {ws : List WarcRecord} (hg : ∀ x ∈ w :: w' :: ws, x.Good) (hz : IsMember f.rest ((w :: w' :: ws).flatMap WarcRecord.bytes))
    (hr : ReadsGz f 16384 m [f.rest]) {http : Option StatusAndHeaders} {fields : List Str} (hl : lit "length" ∉ fields) (hx : Indexable fields m ⟨w, f.origin, 0, http⟩) {file base : Str} (hb : IsBasename file base) (ids : Nat → Str) :
    indexFile fields false ids file f = (.error .nonChunkedGzip, [Located.entry ⟨w, f.origin, 0, http⟩ base fields]) := by
  obtain ⟨it, k1, k2⟩ := multi_ready L (io := opts fields false ids) ⟨hg, fun _ _ => .inl rfl, rfl⟩ hz hr (kf := none) (by simp)
  obtain ⟨xs', q1, q2⟩ := indexLoop_shown hb (fun _ => hl) ([⟨w, f.origin, 0, http⟩] : List Located) _ (PyStream.bound it.reader + 2) k2 (indexes_located _ (fun x hx' => by rw [List.mem_singleton.1 hx']; exact hx)) (by simp)
  rw [each_eq q1] at q2
  unfold indexFile
  rw [k1]
  exact q2

/-- C58: for any number of files and any fields, there is one line for each record, in the order of the files and of the records in them; each line is one JSON object, the
entry of its record. -/
theorem C58_index_partial (L : LawfulGzip IsMember) {m : Nat} {fields : List Str} (ids : Nat → Str) : ∀ (inputs : List (Str × FileObj × Str × List Located)),
    (∀ i ∈ inputs, IsBasename i.1 i.2.2.1 ∧ Archived IsMember m i.2.1 i.2.2.2 ∧ ∀ x ∈ i.2.2.2, Indexable fields m x) →
    ∃ lines : List Str, Each (fun entry line => '\n' ∉ line ∧ Json.object line = some (entry, [])) (inputs.flatMap (fun i => i.2.2.2.map (fun x => x.entry i.2.2.1 fields))) lines ∧
      index fields false ids (inputs.map (fun i => (i.1, i.2.1))) = (.ok (), lines.flatMap (fun l => l ++ ['\n']))
  | [], _ => ⟨[], .nil, rfl⟩
  | (file, f, base, xs) :: inputs, h => by
    obtain ⟨h1, h2, h3⟩ := h (file, f, base, xs) (by simp)
    have h4 := C58_entries L h2 h3 h1 ids
    obtain ⟨lines, k1, k2⟩ := C58_index_partial L ids inputs (fun i hi => h i (by simp [hi]))
    have text : ∀ entries : List (List (Str × Str)), ∃ ls : List Str, Each (fun entry line => '\n' ∉ line ∧ Json.object line = some (entry, [])) entries ls ∧ entries.flatMap jsonLine = ls.flatMap (fun l => l ++ ['\n']) := by
      intro entries
      induction entries with
      | nil => exact ⟨[], .nil, rfl⟩
      | cons e es ih =>
        obtain ⟨ls, q1, q2⟩ := ih
        obtain ⟨l, r1, r2⟩ := Json.object_line e
        exact ⟨l :: ls, .cons ⟨Json.line_one e r1, r2⟩ q1, by rw [List.flatMap_cons, List.flatMap_cons, q2, r1]⟩
    obtain ⟨ls, q1, q2⟩ := text (xs.map (fun x => x.entry base fields))
    refine ⟨ls ++ lines, ?_, ?_⟩
    · rw [List.flatMap_cons]; exact each_append q1 k1
    · rw [List.map_cons, index, h4]
      dsimp only
      rw [k2]
      dsimp only
      rw [q2, List.flatMap_append]

end

/-- Fields with commas in between. -/
def commas : List Str → Str
  | [] => []
  | [f] => f
  | f :: fs => f ++ ',' :: commas fs

/-- The fields given on the command line, `a,b,c`, are split at the commas. -/
theorem C58_fields : ∀ fields : List Str, fields ≠ [] → (∀ f ∈ fields, ',' ∉ f) → splitComma (commas fields) = fields := by
  have one : ∀ f : Str, ',' ∉ f → splitComma f = [f] := by
    intro f hf
    induction f with
    | nil => rfl
    | cons c f ih =>
      simp only [List.mem_cons, not_or] at hf
      rw [splitComma, if_neg (fun h => hf.1 h.symm), ih hf.2]
  have more : ∀ f rest : Str, ',' ∉ f → splitComma (f ++ ',' :: rest) = f :: splitComma rest := by
    intro f rest hf
    induction f with
    | nil => rw [List.nil_append, splitComma, if_pos rfl]
    | cons c f ih =>
      simp only [List.mem_cons, not_or] at hf
      rw [List.cons_append, splitComma, if_neg (fun h => hf.1 h.symm), ih hf.2]
  intro fields
  induction fields with
  | nil => intro h; exact absurd rfl h
  | cons f fs ih =>
    intro _ h
    cases fs with
    | nil => exact one f (h f (by simp))
    | cons g gs =>
      show splitComma (f ++ ',' :: commas (g :: gs)) = _
      rw [more f _ (h f (by simp)), ih (by simp) (fun x hx => h x (by simp [hx]))]

section
open Toy

/-- Some fields, one of them twice. -/
def exFields : List Str := [lit "offset", lit "warc-type", lit "http:status", lit "offset", lit "http:a", lit "filename", lit "no", lit "length"]

def exHttpHead : StatusAndHeaders := { protocol := lit "HTTP/1.1", statusline := lit "200 OK", headers := [(lit "A", lit "b")] }

theorem exHttp_part : exHttp.HttpPart 17 (some exHttpHead) := by
  obtain ⟨h1, h2, h3, h4, h5⟩ := exHttp_settled.http.resolve_left (by
    rintro ⟨h | h | h, -⟩
    · cases h
    · exact h exHttp_http
    · revert h; decide)
  exact .head exHttpHead (utf8Encode (lit "xy")) h2 h3 h4 ⟨by decide +kernel, by decide +kernel, by decide +kernel, by decide +kernel, by decide +kernel⟩ (.inl (by decide))

theorem exInfo_part (m : Nat) : exInfo.HttpPart m none := by
  refine .none (.inl ?_)
  rintro ⟨u, v, h, _⟩
  have : exInfo.value (lit "WARC-Target-URI") = none := by decide
  rw [this] at h; cases h

/-- The hypotheses of `C58_index_partial`: two files, one of them compressed. -/
example : ∃ xs ys : List Located, ∀ i ∈ [(lit "a/b.warc", exFile, lit "b.warc", xs), (lit "c.gz", exGz, lit "c.gz", ys)],
    IsBasename i.1 i.2.2.1 ∧ Archived IsMember 17 i.2.1 i.2.2.2 ∧ ∀ x ∈ i.2.2.2, Indexable exFields 17 x := by
  refine ⟨placements exFile.origin [(exHttp, some exHttpHead), (exInfo, none)], placementsGz exGz.origin [(compress exHttp.bytes, exHttp, some exHttpHead), (compress exInfo.bytes, exInfo, none)], ?_⟩
  have nouri : ¬ ∃ n ∈ exFields, PyUni.lower n = PyUni.lower (lit "WARC-Target-URI") := by decide
  intro i hi
  simp only [List.mem_cons, List.not_mem_nil, or_false] at hi
  rcases hi with rfl | rfl
  · refine ⟨⟨by decide, .inr ⟨lit "a", by decide⟩⟩, .plain exFile [(exHttp, some exHttpHead), (exInfo, none)] ?_ rfl ⟨by decide, by simp [exFile], .inr ⟨rfl, by decide⟩⟩, ?_⟩
    · intro x hx
      simp only [List.mem_cons, List.not_mem_nil, or_false] at hx
      rcases hx with rfl | rfl
      · exact exHttp_good
      · exact exInfo_good
    · intro x hx
      simp only [placements, List.mem_cons, List.not_mem_nil, or_false] at hx
      rcases hx with rfl | rfl
      · exact ⟨fun _ => exHttp_part, fun h => absurd h nouri⟩
      · exact ⟨fun _ => exInfo_part 17, fun h => absurd h nouri⟩
  · refine ⟨⟨by decide, .inl rfl⟩, .gzip exGz [(compress exHttp.bytes, exHttp, some exHttpHead), (compress exInfo.bytes, exInfo, none)] (by simp) ?_ rfl (.fit (by decide) rfl (by decide +kernel)), ?_⟩
    · intro x hx
      simp only [List.mem_cons, List.not_mem_nil, or_false] at hx
      rcases hx with rfl | rfl
      · exact ⟨exHttp_good, rfl⟩
      · exact ⟨exInfo_good, rfl⟩
    · intro x hx
      simp only [placementsGz, List.mem_cons, List.not_mem_nil, or_false] at hx
      rcases hx with rfl | rfl
      · exact ⟨fun _ => exHttp_part, fun h => absurd h nouri⟩
      · exact ⟨fun _ => exInfo_part 17, fun h => absurd h nouri⟩

/-- The hypotheses of `C58_member`. -/
example : ∃ f : FileObj, (∀ x ∈ [exHttp, exInfo], x.Good) ∧ IsMember f.rest ([exHttp, exInfo].flatMap WarcRecord.bytes) ∧ ReadsGz f 16384 17 [f.rest] ∧
    lit "length" ∉ [lit "offset", lit "warc-target-uri"] ∧ Indexable [lit "offset", lit "warc-target-uri"] 17 ⟨exHttp, f.origin, 0, none⟩ :=
  ⟨{ content := compress ([exHttp, exInfo].flatMap WarcRecord.bytes) }, ex_fit.good, rfl, (.fit (by decide) rfl (by decide +kernel)), by decide, ⟨fun h => absurd h (by decide), fun _ => by show _ ≤ 1; decide⟩⟩

/-- A record with a URI that needs cleaning. -/
def exSpaced : WarcRecord where
  head := utf8Encode (lit "WARC/1.0\r\nWARC-Type: metadata\r\nWARC-Target-URI: <http://x/a b>\r\nContent-Length: 0\r\n\r\n")
  headers := [(lit "WARC-Type", lit "metadata"), (lit "WARC-Target-URI", lit "<http://x/a b>"), (lit "Content-Length", lit "0")]
  block := []
  sep := utf8Encode (lit "\r\n\r\n")

/-- What the model does, and what is asked of it. -/
example : index [lit "WARC-target-URI"] false (fun _ => []) [(lit "c", { content := exSpaced.bytes })] = (.ok (), lit "{\"WARC-target-URI\": \"http://x/a%20b\"}\n") ∧
    Located.entry ⟨exSpaced, 0, 0, none⟩ (lit "c") [lit "WARC-target-URI"] = [(lit "WARC-target-URI", lit "http://x/a%20b")] ∧ AtMostOne (lit "WARC-Target-URI") exSpaced.headers := by decide +kernel

/-- With two such headers, the URI that is printed is not cleaned: what is replaced is the last one, what is read is the first. -/
theorem C58_two_uris : index [lit "warc-target-uri"] false (fun _ => []) [(lit "c", { content := utf8Encode (lit "WARC/1.0\r\nWARC-Type: metadata\r\nWARC-Target-URI: <http://x/>\r\nWARC-Target-URI: http://y/\r\nContent-Length: 0\r\n\r\n\r\n\r\n") })] =
    (.ok (), lit "{\"warc-target-uri\": \"<http://x/>\"}\n") := by decide +kernel

/-- What the model does. -/
example : index exFields false (fun _ => []) [(lit "a/b.warc", exFile)] = (.ok (), lit
    "{\"offset\": \"0\", \"warc-type\": \"response\", \"http:status\": \"200\", \"http:a\": \"b\", \"filename\": \"b.warc\", \"length\": \"108\"}\n{\"offset\": \"112\", \"warc-type\": \"metadata\", \"filename\": \"b.warc\", \"length\": \"71\"}\n") := by
  decide +kernel

example : splitComma (lit "offset,http:status,") = [lit "offset", lit "http:status", []] := by decide

end
end Warcio.Props
