import Verif.Props.Same
import Verif.Props.ArcTools
import Verif.Props.ArcConvert
import Verif.Spec.Converted

/-!
# C86: an ARC file is turned into a WARC file, which is then checked, indexed, and read
-/

set_option linter.unusedSectionVars false

namespace Warcio.Props
open Warcio ArchiveIter Checker

section
variable [PyUni] [Hashlib] [Zlib] [Deflater] {IsMember : Bytes → Bytes → Prop} {IsCoded : DType → Bytes → Bytes → Prop} {f : Bytes → Bytes} {m : Nat}

/-- `l` is the WARC record made of the ARC record `y`, in its place in the new file. -/
def MadeOf (f : Bytes → Bytes) (ids : Nat → Str) (m : Nat) (y : ArcAt) (l : Located) : Prop :=
  ∃ p k d, y.record.Convertible (Recompressor.opts ids) m p ∧ y.record.Dated d ∧ (y.record.asWarc (ids k) (datetimeToIsoDate d)).Rewritten f p l.record ∧ l.http = y.http

theorem arc_payloads {io : IterOpts} : ∀ {ys : List ArcAt}, (∀ y ∈ ys, ∃ p, y.record.Convertible io m p) → ∃ xs : List (ArcAt × Bytes), xs.map (·.1) = ys ∧ ∀ x ∈ xs, x.1.record.Convertible io m x.2
  | [], _ => ⟨[], rfl, by simp⟩
  | y :: ys, h => by
    obtain ⟨p, hp⟩ := h y (by simp)
    obtain ⟨xs, h1, h2⟩ := arc_payloads (fun l hl => h l (List.mem_cons_of_mem _ hl))
    refine ⟨(y, p) :: xs, by rw [List.map_cons, h1], ?_⟩
    intro x hx
    rcases List.mem_cons.1 hx with rfl | hx
    · exact hp
    · exact h2 x hx

theorem arc_out {ids : Nat → Str} : ∀ {xs : List (ArcAt × Bytes)} {out : List (Bytes × WarcRecord)},
    Each (fun x y => (∃ w, (∃ k d, x.1.record.Dated d ∧ w = x.1.record.asWarc (ids k) (datetimeToIsoDate d)) ∧ w.Rewritten f x.2 y.2) ∧ Stored IsMember true y.1 y.2) xs out →
    (∀ x ∈ xs, x.1.record.Convertible (Recompressor.opts ids) m x.2) → ∃ ts : List (Bytes × WarcRecord × Option StatusAndHeaders), ts.map (·.1) = out.map (·.1) ∧
      (∀ t ∈ ts, t.2.1.Good ∧ IsMember t.1 t.2.1.bytes) ∧ ts.length = xs.length ∧ ∀ off, Each (MadeOf f ids m) (xs.map (·.1)) (placementsGz off ts)
  | _, _, .nil, _ => ⟨[], rfl, by simp, rfl, fun _ => .nil⟩
  | x :: xs, y :: out, .cons ⟨⟨w, ⟨k, d, h1, h2⟩, h3⟩, h4⟩ h5, hw => by
    obtain ⟨ts, k1, k2, k3, k4⟩ := arc_out h5 (fun x hx => hw x (List.mem_cons_of_mem _ hx))
    refine ⟨(y.1, y.2, x.1.http) :: ts, by rw [List.map_cons, k1, List.map_cons], ?_, by rw [List.length_cons, k3, List.length_cons], fun off => ?_⟩
    · intro t ht
      rcases List.mem_cons.1 ht with rfl | ht
      · exact ⟨h3.good, h4⟩
      · exact k2 t ht
    · rw [placementsGz]
      subst h2
      exact .cons ⟨x.2, k, d, hw x (List.mem_cons_self ..), h1, h3, rfl⟩ (k4 _)

/-- An ARC file, compressed or not, is recompressed: the new file is an archive of the WARC records that are made of its records. -/
theorem arc_again (L : LawfulGzip IsMember) (D : LawfulDeflater IsMember) (H : Hashlib.hash (lit "sha1") = some f) {c : BuilderCfg} (hf : c.filter = some) (hc : c.gzip = true)
    {ids : Nat → Str} (hi : ∀ k, ArcRecord.Plain (ids k)) {g : FileObj} {ys : List ArcAt} (ha : ArcArchived IsMember m g ys) (hne : ys ≠ [])
    (hw : ∀ y ∈ ys, ∃ p, y.record.Convertible (Recompressor.opts ids) m p) (again : List Nat) :
    ∃ zs : List Bytes, zs.length = ys.length ∧ Recompressor.recompress c ids g again = (.noErrors ys.length, ({} : OutFile).extended zs.flatten) ∧
      ∀ {g' : FileObj}, g'.rest = zs.flatten → ReadsGz g' 16384 m zs → ∃ ls, Archived IsMember m g' ls ∧ Each (MadeOf f ids m) ys ls := by
  obtain ⟨xs, x1, x2⟩ := arc_payloads hw
  have hl : xs.length = ys.length := by rw [← x1, List.length_map]
  obtain ⟨it, k1, k2, k3⟩ := arc_archived_ready L ha (io := Recompressor.opts ids) rfl (by simp [Recompressor.opts])
  have hb := open_bound k1
  have each : ∀ xs : List (ArcAt × Bytes), (∀ x ∈ xs, x.1.record.Convertible (Recompressor.opts ids) m x.2) →
      Each (fun x e => ∀ rec left, e.shows rec left → ∃ w : WarcRecord, (∃ k d, x.1.record.Dated d ∧ w = x.1.record.asWarc (ids k) (datetimeToIsoDate d)) ∧ w.Shaped m x.2 ∧ w.Shows (Recompressor.opts ids) m rec left)
        xs ((xs.map (·.1)).map (fun x => x.record.expected (Recompressor.opts ids) m x.offset x.size)) := by
    intro xs
    induction xs with
    | nil => intro _; exact .nil
    | cons x xs ih =>
      intro h
      refine .cons ?_ (ih (fun x hx => h x (List.mem_cons_of_mem _ hx)))
      intro rec left hs
      obtain ⟨k, d, q1, q2⟩ := ArcRecord.shows_asWarc (io := Recompressor.opts ids) rfl hs
      exact ⟨_, ⟨k, d, q1, rfl⟩, ArcRecord.shaped_asWarc (io := Recompressor.opts ids) rfl (h x (List.mem_cons_self ..)) (hi k) d, q2⟩
  have e0 := each xs x2
  rw [x1] at e0
  obtain ⟨out, o1, o2⟩ := copyLoop_shown (io := Recompressor.opts ids) (m := m) (P := (·.2)) D H hf rfl rfl xs _ e0 (PyStream.bound it.reader + 2) it {} 0 k2 (by omega) rfl
  rw [hc] at o1
  obtain ⟨ts, t1, t2, t3, t4⟩ := arc_out (m := m) o1 x2
  rw [x1] at t4
  refine ⟨out.map (·.1), by rw [← t1, List.length_map, t3, hl], ?_, ?_⟩
  · unfold Recompressor.recompress Recompressor.loadAndWrite
    rw [k1]
    dsimp only
    rw [o2, if_pos rfl, Nat.zero_add, hl]
    rfl
  · intro g' h1 h2
    refine ⟨_, .gzip g' ts ?_ t2 ?_ (by rw [t1]; exact h2), t4 _⟩
    · rintro rfl
      exact hne (List.length_eq_zero_iff.1 (hl.symm.trans t3.symm))
    · rw [h1, ← t1]; rfl

/-! ## `warcio check` -/

theorem arc_http {a : ArcRecord} {io : IterOpts} {p : Bytes} (hio : io.arc2warc = true) (h : a.Convertible io m p) : a.Http io ↔ a.Http {} := by
  unfold ArcRecord.Http
  rw [hio]
  constructor
  · rintro ⟨hd, v, h1, h2⟩
    obtain ⟨t1, t2⟩ := (h.uri hd).2
    refine ⟨hd, v, ?_, h2⟩
    have e := Loader.clean_unique (CleanUri.plain a.uri t2) (by simpa using h1)
    have n : noSpaces a.uri = a.uri := Loader.noSpaces_of t1
    show v = a.uri
    rw [← e, n]
  · rintro ⟨hd, v, h1, h2⟩
    obtain ⟨t1, t2⟩ := (h.uri hd).2
    have n : noSpaces a.uri = a.uri := Loader.noSpaces_of t1
    have h1 : v = a.uri := h1
    refine ⟨hd, v, ?_, h2⟩
    have := CleanUri.plain a.uri t2
    rw [n] at this
    subst h1
    simpa using this

theorem arc_unjudged {a : ArcRecord} {ids : Nat → Str} {p : Bytes} (hc : a.Convertible (Recompressor.opts ids) m p) (h : ArcCheckable IsCoded m a) (id iso : Str) :
    (a.asWarc id iso).Payload m p ∧ Checkable IsCoded m (a.asWarc id iso) none := by
  have hh : (a.asWarc id iso).Http ↔ a.Http {} := (ArcRecord.http_asWarc a (io := Recompressor.opts ids) rfl id iso).trans (arc_http rfl hc)
  have hp : (a.asWarc id iso).Payload m p := by
    obtain ⟨hb, hs⟩ := hc.splits
    refine payload_of_split (hb := hb) ?_
    show SplitsOf (a.asWarc id iso).Http a.block m hb p
    rw [propext (ArcRecord.http_asWarc a (io := Recompressor.opts ids) rfl id iso)]
    exact hs
  have hd : ∀ t s, lookedAt t s none none = (none, none) := by
    intro t s
    unfold lookedAt
    split
    · rfl
    · split <;> rfl
  have hv := ArcRecord.value_digests a id iso
  refine ⟨hp, ⟨?_, ?_, fun hx => h.line (hh.1 hx), p, none, none, hp, ?_, ?_, rfl⟩⟩
  · rw [hv.1, hv.2]
    unfold DigestsUsable
    rw [hd]
    exact fun _ => ⟨⟨none, .absent⟩, none, .absent⟩
  · obtain ⟨d, hc⟩ := h.content
    refine ⟨d, ?_⟩
    show ContentOf IsCoded (a.asWarc id iso).Http a.block m d
    rw [propext hh]
    exact hc
  · unfold WarcRecord.digests
    rw [hv.1, hv.2, hd]
    by_cases h0 : a.block = []
    · refine .passed_over h0 ?_
      rintro ⟨h, h1, -⟩
      cases h1
    · exact .compared _ h0 .absent
  · unfold WarcRecord.digests
    rw [hv.1, hv.2, hd]
    exact .absent

theorem arc_judged (H : Hashlib.hash (lit "sha1") = some f) (hl : ∀ algo g, Hashlib.hash algo = some g → ∀ a b, (g a).length = (g b).length) {ids : Nat → Str} : ∀ {ys : List ArcAt} {ls : List Located},
    Each (MadeOf f ids m) ys ls → (∀ y ∈ ys, ArcCheckable IsCoded m y.record) → ∃ zs : List (Located × Option Bool), zs.map (·.1) = ls ∧ (∀ z ∈ zs, Checkable IsCoded m z.1.record z.2) ∧
      (∀ z ∈ zs, z.2 ≠ some false) ∧ (ys.filter (fun y => decide (y.record.block ≠ []))).length ≤ (zs.filter (fun z => decide (z.2 = some true))).length
  | _, _, .nil, _ => ⟨[], rfl, by simp, by simp, Nat.le_refl _⟩
  | y :: ys, l :: ls, .cons ⟨p, k, d, h1, h2, h3, h4⟩ h5, hc => by
    obtain ⟨zs, k1, k2, k3, k4⟩ := arc_judged H hl h5 (fun y hy => hc y (List.mem_cons_of_mem _ hy))
    obtain ⟨u1, u2⟩ := arc_unjudged h1 (hc y (List.mem_cons_self ..)) (ids k) (datetimeToIsoDate d)
    obtain ⟨v', c1, c2, c3⟩ := kept_checkable H hl u1 h3 u2
    have hv : v' ≠ some false := fun h => by cases c2.1.1 h
    have hn : y.record.block ≠ [] → v' = some true := by
      intro hb
      have := c3 (by rw [ArcRecord.value_type]; split <;> decide) hb (by rw [(ArcRecord.value_digests _ _ _).1]; simp)
      rcases v' with _ | _ | _
      · exact absurd rfl this
      · exact absurd rfl hv
      · rfl
    refine ⟨(l, v') :: zs, by rw [List.map_cons, k1], ?_, ?_, ?_⟩
    · intro z hz
      rcases List.mem_cons.1 hz with rfl | hz
      · exact c1
      · exact k2 z hz
    · intro z hz
      rcases List.mem_cons.1 hz with rfl | hz
      · exact hv
      · exact k3 z hz
    · by_cases hb : y.record.block = []
      · rw [List.filter_cons_of_neg (by simpa using hb)]
        refine Nat.le_trans k4 ?_
        rw [List.filter_cons]
        split
        · exact Nat.le_succ _
        · exact Nat.le_refl _
      · rw [List.filter_cons_of_pos (by simpa using hb), List.filter_cons_of_pos (by simpa using hn hb)]
        exact Nat.succ_le_succ k4

theorem passes_append : ∀ a b : List Print, passes (a ++ b) = passes a + passes b
  | [], _ => (Nat.zero_add _).symm
  | .file _ :: a, b => passes_append a b
  | .failure _ :: a, b => passes_append a b
  | .record _ _ _ none _ :: a, b => passes_append a b
  | .record _ _ _ (some _) _ :: a, b => by
    rw [List.cons_append, passes, passes, passes_append a b, Nat.add_assoc]

theorem lines_passes : ∀ {zs : List (Located × Option Bool)} {lines : List Print}, CheckLines true zs lines → (zs.filter (fun z => decide (z.2 = some true))).length ≤ passes lines
  | _, _, .nil => Nat.le_refl _
  | _, _, .bad x xs ps out h1 h2 => by
    rw [List.filter_cons_of_neg (by simp)]
    exact lines_passes (lines := out) h2
  | _, _, .quiet x v xs out h1 h2 h3 => by cases h2
  | _, _, .note x v xs out h1 h2 h3 => by
    have := lines_passes h3
    rw [passes]
    by_cases hv : v = some true
    · rw [List.filter_cons_of_pos (by simpa using hv), List.length_cons, if_pos (by rw [hv]; rfl)]
      omega
    · rw [List.filter_cons_of_neg (by simpa using hv)]
      omega

theorem made_check (L : LawfulGzip IsMember) (LC : LawfulCodecs IsCoded) (H : Hashlib.hash (lit "sha1") = some f)
    (hl : ∀ algo g, Hashlib.hash algo = some g → ∀ a b, (g a).length = (g b).length) {ids : Nat → Str} {ys : List ArcAt} (hw : ∀ y ∈ ys, ArcCheckable IsCoded m y.record)
    {g' : FileObj} {ls : List Located} (k1 : Archived IsMember m g' ls) (k2 : Each (MadeOf f ids m) ys ls) (verbose : Bool) (name : Str) :
    ∃ out, processAll verbose [(name, g')] 0 = (.ok 0, out) ∧ failures out = [] ∧ unreadable out = false ∧
        (verbose = true → (ys.filter (fun y => decide (y.record.block ≠ []))).length ≤ passes out) := by
  obtain ⟨vs, v1, v2, v3, v4⟩ := arc_judged (IsCoded := IsCoded) H hl k2 hw
  have hin : CheckInput L IsCoded m g' vs false := .archive g' vs (by rw [v1]; exact k1) v2
  obtain ⟨out, p1, p2, p3⟩ := judged L LC hin verbose name
  obtain ⟨out', q1, q2⟩ := C57_check_partial L LC verbose [(name, g', vs, false)] (by intro i hi; rw [List.mem_singleton.1 hi]; exact hin)
  have q2' : processAll verbose [(name, g')] 0 = _ := q2
  rw [p1] at q2'
  have e : out' = out := (congrArg Prod.snd q2').symm
  subst e
  have hn : ¬ (false = true ∨ ∃ y ∈ vs, y.2 = some false) := by
    rintro (h | ⟨y, hy, h⟩)
    · cases h
    · exact v3 y hy h
  rw [if_neg hn] at p1
  refine ⟨out', p1, ?_, p3, ?_⟩
  · rw [p2]
    have : vs.filter (fun x => decide (x.2 = some false)) = [] := List.filter_eq_nil_iff.2 (by
      intro x hx
      simpa using v3 x hx)
    rw [this]; rfl
  · rintro rfl
    cases q1 with
    | cons _ _ _ lines _ out'' h1 h2 =>
      cases h2
      refine Nat.le_trans v4 (Nat.le_trans (lines_passes h1) ?_)
      rw [List.append_nil]
      unfold checkReport
      rw [passes_append]
      split
      · rename_i hl
        rw [hl]
        exact Nat.zero_le _
      · exact Nat.le_add_right _ _

/-- C86: an ARC file, compressed or not, is turned into a WARC file by `recompress`.  `warcio check` then exits with 0 and reports no failure, and with `-v` it says of each record
with a block that its digests are right.
Partial: ARC records whose fields can be headers, without URIs that need cleaning, and HTTP headers in the form in which they are written (`Convertible`). -/
theorem C86_check_partial (L : LawfulGzip IsMember) (D : LawfulDeflater IsMember) (LC : LawfulCodecs IsCoded) (H : Hashlib.hash (lit "sha1") = some f)
    (hl : ∀ algo g, Hashlib.hash algo = some g → ∀ a b, (g a).length = (g b).length) {c : BuilderCfg} (hf : c.filter = some) (hc : c.gzip = true)
    {ids : Nat → Str} (hi : ∀ k, ArcRecord.Plain (ids k)) {g : FileObj} {ys : List ArcAt} (ha : ArcArchived IsMember m g ys) (hne : ys ≠ [])
    (hw : ∀ y ∈ ys, (∃ p, y.record.Convertible (Recompressor.opts ids) m p) ∧ ArcCheckable IsCoded m y.record) (again : List Nat) :
    ∃ zs : List Bytes, zs.length = ys.length ∧ Recompressor.recompress c ids g again = (.noErrors ys.length, ({} : OutFile).extended zs.flatten) ∧
      ∀ {g' : FileObj}, g'.rest = zs.flatten → ReadsGz g' 16384 m zs → ∀ verbose name, ∃ out, processAll verbose [(name, g')] 0 = (.ok 0, out) ∧ failures out = [] ∧ unreadable out = false ∧
        (verbose = true → (ys.filter (fun y => decide (y.record.block ≠ []))).length ≤ passes out) := by
  obtain ⟨zs, o0, o1, o2⟩ := arc_again L D H hf hc hi ha hne (fun y hy => (hw y hy).1) again
  refine ⟨zs, o0, o1, ?_⟩
  intro g' h1 h2 verbose name
  obtain ⟨ls, k1, k2⟩ := o2 h1 h2
  exact made_check L LC H hl (fun y hy => (hw y hy).2) k1 k2 verbose name

/-! ## `warcio index` -/

theorem arc_entries (L : LawfulGzip IsMember) {g : FileObj} {ys : List ArcAt} (ha : ArcArchived IsMember m g ys) {fields : List Str} (hy : ∀ y ∈ ys, ArcIndexable fields m y)
    {file base : Str} (hb : IsBasename file base) (ids : Nat → Str) :
    ∃ xs : List Located, Each (ArcAt.Indexed ids) ys xs ∧ Indexer.indexFile fields false ids file g = (.ok (), xs.map (fun x => x.entry base fields)) := by
  obtain ⟨it, k1, k2, k3⟩ := arc_archived_ready L ha (io := Indexer.opts fields false ids) rfl (by simp [Indexer.opts])
  obtain ⟨xs, q1, q2⟩ := indexLoop_shown hb (fun h => by cases h) ys _ (PyStream.bound it.reader + 2) k2 (indexes_arc ys hy) (by have := open_bound k1; omega)
  refine ⟨xs, q1, ?_⟩
  unfold Indexer.indexFile
  rw [k1]
  exact q2

theorem value_id (a : ArcRecord) (id id' iso : Str) {n : Str} (hn : PyUni.lower (lit "WARC-Record-ID") ≠ PyUni.lower n) : (a.asWarc id iso).value n = (a.asWarc id' iso).value n := by
  show firstValue n (a.converted id iso) = firstValue n (a.converted id' iso)
  unfold firstValue ArcRecord.converted
  have key : ∀ (x y z : Header) (l : List Header), PyUni.lower y.1 ≠ PyUni.lower n → PyUni.lower z.1 ≠ PyUni.lower n →
      (x :: y :: l).find? (fun h => PyUni.lower h.1 == PyUni.lower n) = (x :: z :: l).find? (fun h => PyUni.lower h.1 == PyUni.lower n) := by
    intro x y z l h1 h2
    by_cases hx : PyUni.lower x.1 = PyUni.lower n
    · rw [List.find?_cons_of_pos (by simpa using hx), List.find?_cons_of_pos (by simpa using hx)]
    · rw [List.find?_cons_of_neg (by simpa using hx), List.find?_cons_of_neg (by simpa using h1), List.find?_cons_of_neg (by simpa using hx), List.find?_cons_of_neg (by simpa using h2)]
  exact congrArg (Option.map (fun x => x.2)) (key _ (lit "WARC-Record-ID", id) (lit "WARC-Record-ID", id') _ hn hn)

theorem arc_lasting {ids ids' : Nat → Str} {y : ArcAt} {x l : Located} (ht : y.record.Timed) (hx : ArcAt.Indexed ids y x) (hl : MadeOf f ids' m y l) {fields : List Str}
    (hn : ∀ n ∈ fields, Lasting n ∧ PyUni.lower (lit "WARC-Record-ID") ≠ PyUni.lower n) (a b : Str) : l.entry b fields = x.entry a fields := by
  obtain ⟨k, d, d1, rfl⟩ := hx
  obtain ⟨p, k', d', c1, c2, c3, c4⟩ := hl
  obtain ⟨e, e1, e2, e3, e4⟩ := ht
  have hd : datetimeToIsoDate d' = datetimeToIsoDate d := by rw [c2.2 e e1 e2 e3 e4, d1.2 e e1 e2 e3 e4]
  rw [hd] at c3
  have key : ∀ n, Lasting n → PyUni.lower (lit "WARC-Record-ID") ≠ PyUni.lower n →
      l.field b n = Located.field ⟨y.record.asWarc (ids k) (datetimeToIsoDate d), y.offset, y.size, y.http⟩ a n := by
    intro n h1 h2
    rw [lasting_field (l := ⟨y.record.asWarc (ids' k') (datetimeToIsoDate d), y.offset, y.size, y.http⟩) c3 c4 h1 a b]
    unfold Located.field
    rw [value_id y.record (ids' k') (ids k) _ h2, value_id y.record (ids' k') (ids k) _ (n := lit "WARC-Type") (differ (by decide) (by decide) (by decide))]
  unfold Located.entry
  have : ∀ ns : List Str, (∀ n ∈ ns, Lasting n ∧ PyUni.lower (lit "WARC-Record-ID") ≠ PyUni.lower n) → ns.filterMap (fun n => (l.field b n).map (fun v => (n, v))) =
      ns.filterMap (fun n => (Located.field ⟨y.record.asWarc (ids k) (datetimeToIsoDate d), y.offset, y.size, y.http⟩ a n).map (fun v => (n, v))) := by
    intro ns
    induction ns with
    | nil => intro _; rfl
    | cons n ns ih =>
      intro h
      obtain ⟨h1, h2⟩ := h n (List.mem_cons_self ..)
      rw [List.filterMap_cons, List.filterMap_cons, ih (fun n hn => h n (List.mem_cons_of_mem _ hn)), key n h1 h2]
  exact this _ (fun n hn' => hn n (List.mem_eraseDups.1 hn'))

theorem arc_same {ids ids' : Nat → Str} {fields : List Str} (hn : ∀ n ∈ fields, Lasting n ∧ PyUni.lower (lit "WARC-Record-ID") ≠ PyUni.lower n) (a b : Str) : ∀ {ys : List ArcAt} {xs ls : List Located},
    (∀ y ∈ ys, y.record.Timed) → Each (ArcAt.Indexed ids) ys xs → Each (MadeOf f ids' m) ys ls → ls.map (fun l => l.entry b fields) = xs.map (fun x => x.entry a fields)
  | _, _, _, _, .nil, .nil => rfl
  | _, _, _, ht, .cons h1 h2, .cons h3 h4 => by
    rw [List.map_cons, List.map_cons, arc_same hn a b (fun y hy => ht y (List.mem_cons_of_mem _ hy)) h2 h4, arc_lasting (ht _ (List.mem_cons_self ..)) h1 h3 hn a b]

theorem arc_indexable {ids : Nat → Str} {y : ArcAt} {l : Located} (hl : MadeOf f ids m y l) {fields : List Str} (h : ArcIndexable fields m y) : Indexable fields m l := by
  obtain ⟨p, k, d, c1, c2, c3, c4⟩ := hl
  have : Indexable fields m ⟨y.record.asWarc (ids k) (datetimeToIsoDate d), y.offset, y.size, y.http⟩ := ⟨fun hx => by
    have := h hx
    show HttpPartOf _ _ m _
    rw [propext (ArcRecord.http_asWarc y.record (io := { arc2warc := true }) rfl (ids k) (datetimeToIsoDate d))]
    exact this, fun _ => uri_once _ _ _⟩
  exact indexable_again c3 c4 this

theorem made_index (L : LawfulGzip IsMember) {g : FileObj} {ys : List ArcAt} (ha : ArcArchived IsMember m g ys) (ht : ∀ y ∈ ys, y.record.Timed) {ids : Nat → Str}
    {g' : FileObj} {ls : List Located} (k1 : Archived IsMember m g' ls) (k2 : Each (MadeOf f ids m) ys ls) {fields : List Str}
    (hn : ∀ n ∈ fields, Lasting n ∧ PyUni.lower (lit "WARC-Record-ID") ≠ PyUni.lower n) (hy : ∀ y ∈ ys, ArcIndexable fields m y) (ids1 ids2 : Nat → Str) (file file' : Str) :
    Indexer.index fields false ids1 [(file, g)] = Indexer.index fields false ids2 [(file', g')] ∧ (Indexer.index fields false ids1 [(file, g)]).1 = .ok () := by
  have hx' : ∀ l ∈ ls, Indexable fields m l := by
    intro l hl
    obtain ⟨y, hy', q⟩ := each_right k2 l hl
    exact arc_indexable q (hy y hy')
  obtain ⟨xs, e0, e1⟩ := arc_entries L ha hy (Indexer.basename_spec file) ids1
  have e2 := C58_entries L k1 hx' (Indexer.basename_spec file') ids2
  rw [arc_same hn (Indexer.basename file) (Indexer.basename file') ht e0 k2] at e2
  have i1 : Indexer.index fields false ids1 [(file, g)] = (.ok (), (xs.map (fun l => l.entry (Indexer.basename file) fields)).flatMap Indexer.jsonLine ++ []) := by
    unfold Indexer.index
    rw [e1]
    rfl
  have i2 : Indexer.index fields false ids2 [(file', g')] = (.ok (), (xs.map (fun l => l.entry (Indexer.basename file) fields)).flatMap Indexer.jsonLine ++ []) := by
    unfold Indexer.index
    rw [e2]
    rfl
  exact ⟨i1.trans i2.symm, by rw [i1]⟩

/-- C86: `warcio index` prints for the WARC file that was made of an ARC file what it prints for the ARC file, for any fields but the position, the name of the file, the length, the digests
and the identifier, which is made up anew each time.  Partial as `C86_check_partial`; also, the dates are those of dates. -/
theorem C86_index_partial (L : LawfulGzip IsMember) (D : LawfulDeflater IsMember) (H : Hashlib.hash (lit "sha1") = some f) {c : BuilderCfg} (hf : c.filter = some) (hc : c.gzip = true)
    {ids : Nat → Str} (hi : ∀ k, ArcRecord.Plain (ids k)) {g : FileObj} {ys : List ArcAt} (ha : ArcArchived IsMember m g ys) (hne : ys ≠ [])
    (hw : ∀ y ∈ ys, (∃ p, y.record.Convertible (Recompressor.opts ids) m p) ∧ y.record.Timed) (again : List Nat) :
    ∃ zs : List Bytes, zs.length = ys.length ∧ Recompressor.recompress c ids g again = (.noErrors ys.length, ({} : OutFile).extended zs.flatten) ∧
      ∀ {g' : FileObj}, g'.rest = zs.flatten → ReadsGz g' 16384 m zs → ∀ {fields : List Str}, (∀ n ∈ fields, Lasting n ∧ PyUni.lower (lit "WARC-Record-ID") ≠ PyUni.lower n) →
        (∀ y ∈ ys, ArcIndexable fields m y) → ∀ ids ids' file file',
          Indexer.index fields false ids [(file, g)] = Indexer.index fields false ids' [(file', g')] ∧ (Indexer.index fields false ids [(file, g)]).1 = .ok () := by
  obtain ⟨zs, o0, o1, o2⟩ := arc_again L D H hf hc hi ha hne (fun y hy => (hw y hy).1) again
  refine ⟨zs, o0, o1, ?_⟩
  intro g' h1 h2 fields hn hy ids1 ids2 file file'
  obtain ⟨ls, k1, k2⟩ := o2 h1 h2
  exact made_index L ha (fun y hy => (hw y hy).2) k1 k2 hn hy ids1 ids2 file file'

/-! ## `warcio extract` -/

theorem arcPlacements_split : ∀ (xs : List (ArcRecord × Option StatusAndHeaders)) (off : Int) (y : ArcAt), y ∈ arcPlacements off xs →
    ∃ pre post, xs = pre ++ (y.record, y.http) :: post ∧ y.offset = off + len (pre.flatMap (·.1.bytes))
  | (w, h) :: xs, off, y, hy => by
    rw [arcPlacements] at hy
    rcases List.mem_cons.1 hy with rfl | hy
    · exact ⟨[], xs, rfl, by simp [len]⟩
    · obtain ⟨pre, post, rfl, h2⟩ := arcPlacements_split xs _ y hy
      refine ⟨(w, h) :: pre, post, rfl, ?_⟩
      rw [h2, List.flatMap_cons]
      simp only [len, List.length_append]; omega

theorem arcPlacementsGz_split : ∀ (xs : List (Bytes × ArcRecord × Option StatusAndHeaders)) (off : Int) (y : ArcAt), y ∈ arcPlacementsGz off xs →
    ∃ pre z post, xs = pre ++ (z, y.record, y.http) :: post ∧ y.offset = off + len (pre.flatMap (·.1))
  | (z, w, h) :: xs, off, y, hy => by
    rw [arcPlacementsGz] at hy
    rcases List.mem_cons.1 hy with rfl | hy
    · exact ⟨[], z, xs, rfl, by simp [len]⟩
    · obtain ⟨pre, z', post, rfl, h2⟩ := arcPlacementsGz_split xs _ y hy
      refine ⟨(z, w, h) :: pre, z', post, rfl, ?_⟩
      rw [h2, List.flatMap_cons]
      simp only [len, List.length_append]; omega

/-- What is at the offset of an ARC record is the record. -/
theorem arc_extract (L : LawfulGzip IsMember) (LC : LawfulCodecs IsCoded) {g : FileObj} {ys : List ArcAt} (ha : ArcArchived IsMember m g ys) (h0 : g.pos = 0) (hs : g.seekable = true)
    {y : ArcAt} (hy : y ∈ ys) {po ho : Bool} {out : Bytes} (hp : ArcPrinted IsCoded y.record m po ho out) : Extractor.extract g y.offset po ho = (.ok (), out) := by
  have horig : g.origin = 0 := by unfold FileObj.origin; rw [if_pos hs, h0]; rfl
  have hcont : g.rest = g.content := by unfold FileObj.rest; rw [h0]; rfl
  cases ha with
  | plain xs h1 h2 h3 =>
    obtain ⟨pre, post, rfl, k2⟩ := arcPlacements_split xs _ y hy
    rw [k2, horig, Int.zero_add]
    rw [hcont, List.flatMap_append] at h2
    exact C78_extract_partial L LC hs (as := post.map (·.1)) (fun w hw => by
      rcases List.mem_cons.1 hw with rfl | hw
      · exact h1 (y.record, y.http) (by simp)
      · obtain ⟨x, hx, rfl⟩ := List.mem_map.1 hw
        exact h1 x (by simp [hx])) (by rw [h2, List.flatMap_cons, List.flatMap_cons, List.flatMap_map]) h3 hp
  | gzip xs hne h1 h2 h3 =>
    obtain ⟨pre, z, post, rfl, k2⟩ := arcPlacementsGz_split xs _ y hy
    rw [k2, horig, Int.zero_add]
    rw [hcont, List.flatMap_append] at h2
    exact C78_extract_gzip_partial L LC hs (z := z) (ms := post.map (fun x => (x.1, x.2.1))) (fun w hw => by
      rcases List.mem_cons.1 hw with rfl | hw
      · exact h1 (z, y.record, y.http) (by simp)
      · obtain ⟨x, hx, rfl⟩ := List.mem_map.1 hw
        exact h1 x (by simp [hx])) (by rw [h2, List.flatMap_cons, List.flatMap_cons, List.flatMap_map]) ⟨h3.block, h3.lines.imp id (fun h => ⟨h.1, fun z' hz' => h.2 z' (by
          simp only [List.map_cons, List.map_map, List.mem_cons, List.map_append, List.mem_append, List.mem_map, Function.comp] at hz' ⊢
          exact .inr hz')⟩)⟩ hp

/-- C78: as C73, for ARC files: the `offset` in the line that `warcio index` prints for a record makes `warcio extract` print this record, or the part of it that is asked for.
Partial as `C78_index_partial` and `C78_extract_partial`. -/
theorem C78_lookup_partial (L : LawfulGzip IsMember) (LC : LawfulCodecs IsCoded) {g : FileObj} {ys : List ArcAt} (ha : ArcArchived IsMember m g ys) (h0 : g.pos = 0)
    (hs : g.seekable = true) {fields : List Str} (hf : lit "offset" ∈ fields) (hy : ∀ y ∈ ys, ArcIndexable fields m y) (file : Str) (ids : Nat → Str) :
    ∃ lines : List Str, Indexer.index fields false ids [(file, g)] = (.ok (), lines.flatMap (fun l => l ++ ['\n'])) ∧
      Each (fun line y => '\n' ∉ line ∧ ∃ entry offset, Json.object line = some (entry, []) ∧ entry.lookup (lit "offset") = some offset ∧
        ∀ po ho out, ArcPrinted IsCoded y.record m po ho out → Extractor.extractAt g offset po ho = (.ok (), out)) lines ys := by
  obtain ⟨xs, lines, k1, k2, k3⟩ := C78_index_partial L ha hy (Indexer.basename_spec file) ids
  refine ⟨lines, k3, ?_⟩
  have k4 := each_join (T := fun line (y : ArcAt) => '\n' ∉ line ∧ ∃ entry, Json.object line = some (entry, []) ∧ entry.lookup (lit "offset") = some (intToStr y.offset)) (by
    rintro x line y ⟨q1, q2⟩ ⟨k, d, -, rfl⟩
    refine ⟨q1, _, q2, ?_⟩
    unfold Located.entry
    exact lookup_filterMap (g := fun n => Located.field _ (Indexer.basename file) n) (by unfold Located.field; rw [if_pos rfl]) _ (by rw [List.mem_eraseDups]; exact hf)) k2 (each_swap k1)
  refine each_mem k4 ?_
  rintro line y hy' ⟨q1, entry, q2, q3⟩
  refine ⟨q1, entry, _, q2, q3, ?_⟩
  intro po ho out hp
  unfold Extractor.extractAt
  rw [parseInt_intToStr]
  exact arc_extract L LC ha h0 hs hy' hp

theorem arc_printed {ids : Nat → Str} {y : ArcAt} {l : Located} (hl : MadeOf f ids m y l) {ho : Bool} {out : Bytes} (h : ArcPrinted IsCoded y.record m true ho out) : Printed IsCoded l.record m true ho out := by
  obtain ⟨p, k, d, c1, c2, c3, c4⟩ := hl
  have hh : (y.record.asWarc (ids k) (datetimeToIsoDate d)).Http ↔ y.record.Http {} := (ArcRecord.http_asWarc y.record (io := Recompressor.opts ids) rfl _ _).trans (arc_http rfl c1)
  refine printed_again (l := ⟨_, 0, 0, none⟩) c3 ?_
  cases h with
  | payload _ _ h1 h2 =>
    refine .payload ho out (fun hx => h1 (hh.1 hx)) ?_
    show ContentOf IsCoded (y.record.asWarc (ids k) (datetimeToIsoDate d)).Http y.record.block m out
    rw [propext hh]
    exact h2

/-- C86: an ARC file is turned into a WARC file.  Both have an index with as many lines as there are records; the offset in a line for the ARC file and the offset in the line for
the WARC file, given to `warcio extract --payload`, make it print the same content of the payload.  Partial as `C86_check_partial`. -/
theorem C86_extract_partial (L : LawfulGzip IsMember) (D : LawfulDeflater IsMember) (LC : LawfulCodecs IsCoded) (H : Hashlib.hash (lit "sha1") = some f) {c : BuilderCfg} (hf : c.filter = some) (hc : c.gzip = true)
    {ids : Nat → Str} (hi : ∀ k, ArcRecord.Plain (ids k)) {g : FileObj} (h0 : g.pos = 0) (hs : g.seekable = true) {ys : List ArcAt} (ha : ArcArchived IsMember m g ys) (hne : ys ≠ [])
    (hw : ∀ y ∈ ys, (∃ p, y.record.Convertible (Recompressor.opts ids) m p) ∧ ∃ data, ArcPrinted IsCoded y.record m true false data) (again : List Nat) :
    ∃ zs : List Bytes, zs.length = ys.length ∧ Recompressor.recompress c ids g again = (.noErrors ys.length, ({} : OutFile).extended zs.flatten) ∧
      ∀ {g' : FileObj}, g'.pos = 0 → g'.seekable = true → g'.rest = zs.flatten → ReadsGz g' 16384 m zs → ∀ {fields : List Str}, lit "offset" ∈ fields → (∀ y ∈ ys, ArcIndexable fields m y) → ∀ ids ids' file file',
        ∃ lines lines' : List Str, lines.length = ys.length ∧ Indexer.index fields false ids [(file, g)] = (.ok (), lines.flatMap (fun l => l ++ ['\n'])) ∧
          Indexer.index fields false ids' [(file', g')] = (.ok (), lines'.flatMap (fun l => l ++ ['\n'])) ∧ Each (SamePayload g g') lines lines' := by
  obtain ⟨zs, o0, o1, o2⟩ := arc_again L D H hf hc hi ha hne (fun y hy => (hw y hy).1) again
  refine ⟨zs, o0, o1, ?_⟩
  intro g' p0 ps h1 h2 fields hfo hx ids1 ids2 file file'
  obtain ⟨ls, k1, k2⟩ := o2 h1 h2
  have hx' : ∀ l ∈ ls, Indexable fields m l := by
    intro l hl
    obtain ⟨y, hy', q⟩ := each_right k2 l hl
    exact arc_indexable q (hx y hy')
  obtain ⟨lines, i1, i2⟩ := C78_lookup_partial L LC ha h0 hs hfo hx file ids1
  obtain ⟨lines', j1, j2⟩ := C73_lookup_partial L LC k1 p0 ps hfo hx' (Indexer.basename_spec file') ids2
  refine ⟨lines, lines', (each_len i2).symm, i1, j1, ?_⟩
  have i3 := each_mem i2 (R' := fun line y => ∃ entry offset, Json.object line = some (entry, []) ∧ entry.lookup (lit "offset") = some offset ∧
    ∃ data, ArcPrinted IsCoded y.record m true false data ∧ Extractor.extractAt g offset true false = (.ok (), data)) (by
    rintro line y hy' ⟨-, entry, offset, a1, a2, a3⟩
    obtain ⟨data, hd⟩ := (hw y hy').2
    exact ⟨entry, offset, a1, a2, data, hd, a3 _ _ _ hd⟩)
  have i4 := each_join (T := fun line (l : Located) => ∃ entry offset, Json.object line = some (entry, []) ∧ entry.lookup (lit "offset") = some offset ∧
    ∃ data, Printed IsCoded l.record m true false data ∧ Extractor.extractAt g offset true false = (.ok (), data)) (by
    rintro y line l ⟨entry, offset, a1, a2, data, a3, a4⟩ b
    exact ⟨entry, offset, a1, a2, data, arc_printed b a3, a4⟩) (each_swap i3) k2
  refine each_join ?_ (each_swap i4) (each_swap j2)
  rintro l line line' ⟨entry, offset, a1, a2, data, a3, a4⟩ ⟨-, entry', offset', b1, b2, b3⟩
  exact ⟨entry, entry', offset, offset', data, a1, b1, a2, b2, a4, b3 _ _ _ a3⟩

open Cli in
/-- C86 at the command line: `a` is an ARC file.  After `warcio recompress a b`, `warcio check b` exits with 0, and `warcio index -f fields a` and `warcio index -f fields b` print the same.
Partial as `C86_check_partial` and `C86_index_partial`. -/
theorem C86_cli_partial (L : LawfulGzip IsMember) (D : LawfulDeflater IsMember) (LC : LawfulCodecs IsCoded) (H : Hashlib.hash (lit "sha1") = some f)
    (hl : ∀ algo g, Hashlib.hash algo = some g → ∀ a b, (g a).length = (g b).length) {ids : Nat → Str} (hi : ∀ k, ArcRecord.Plain (ids k)) {a b : Str} (ha : FileName a) (hb : FileName b) (hab : a ≠ b)
    {w : World} (hwb : w.writable b = true) {content : Bytes} (h : w.files a = some content) {ys : List ArcAt} (hy : ArcArchived IsMember m { content := content } ys) (hne : ys ≠ [])
    (hw : ∀ y ∈ ys, (∃ p, y.record.Convertible (Recompressor.opts ids) m p) ∧ y.record.Timed) :
    let (x, w') := run ids (.recompress a b false) w
    x = .done ∧ ∃ zs : List Bytes, zs.length = ys.length ∧ w'.files b = some zs.flatten ∧
      (m = 0 ∨ (∀ z ∈ zs, Steady 16384 m z) →
        ((∀ y ∈ ys, ArcCheckable IsCoded m y.record) → (run ids (.check [b] false) w').1 = .exit 0) ∧
        ∀ {fields : Str}, (∀ n ∈ Indexer.splitComma fields, Lasting n ∧ PyUni.lower (lit "WARC-Record-ID") ≠ PyUni.lower n) → (∀ y ∈ ys, ArcIndexable (Indexer.splitComma fields) m y) →
          ∃ t, run ids (.index [a] fields none) w' = (.done, w'.print [.text t]) ∧ run ids (.index [b] fields none) w' = (.done, w'.print [.text t])) := by
  obtain ⟨zs, o0, o1, o2⟩ := arc_again L D H (c := { gzip := true }) rfl rfl hi hy hne (fun y hy => (hw y hy).1) []
  have key := C82_recompress ids ha hb hab hwb h
  rw [o1] at key
  dsimp only at key
  have hfr := (C82_inputs_partial ids w).1 a b false hab
  generalize Cli.run ids (.recompress a b false) w = y at key hfr ⊢
  obtain ⟨x, w'⟩ := y
  dsimp only at key hfr ⊢
  have hc : w'.files b = some zs.flatten := by rw [key.1]; rfl
  refine ⟨congrArg Prod.fst key.2, zs, o0, hc, ?_⟩
  intro hz
  have hrd : ReadsGz { content := zs.flatten } 16384 m zs := ⟨by decide, hz.imp id (fun h => ⟨rfl, h⟩)⟩
  obtain ⟨ls, k1, k2⟩ := o2 (g' := { content := zs.flatten }) (by simp [FileObj.rest]) hrd
  refine ⟨?_, ?_⟩
  · intro hk
    obtain ⟨out, u1, -⟩ := made_check L LC H hl hk k1 k2 false b
    have c1 := C82_check ids (w := w') (fs := [(b, zs.flatten)]) (by intro f hf; rw [List.mem_singleton.1 hf]; exact ⟨hb, hc⟩) false
    simp only [List.map_cons, List.map_nil] at c1
    rw [u1] at c1
    rw [c1]
  · intro fields hn hx
    obtain ⟨i1, i2⟩ := made_index L hy (fun y hy => (hw y hy).2) k1 k2 hn hx ids ids a b
    have c1 := C82_index ids (w := w') (fs := [(a, content)]) (by simp) (by intro f hf; rw [List.mem_singleton.1 hf]; exact ⟨ha, hfr.trans h⟩) fields none (by simp) (by simp)
    have c2 := C82_index ids (w := w') (fs := [(b, zs.flatten)]) (by simp) (by intro f hf; rw [List.mem_singleton.1 hf]; exact ⟨hb, hc⟩) fields none (by simp) (by simp)
    simp only [List.map_cons, List.map_nil] at c1 c2
    rw [← i1] at c2
    rw [i2] at c1 c2
    exact ⟨_, c1, c2⟩

end

section
open Toy Recompressor

theorem convertible_mono {a : ArcRecord} {io : IterOpts} {m m' : Nat} {p : Bytes} (hm : m ≤ m') (h : a.Convertible io m p) : a.Convertible io m' p := by
  obtain ⟨hb, hs⟩ := h.splits
  refine { h with splits := ⟨hb, ?_⟩ }
  cases hs with
  | whole h0 => exact .whole h0
  | http y p h1 h2 h3 h4 h5 => exact .http y p h1 h2 h3 h4 (within_mono h5 hm)

theorem exUrn_plain : ∀ k, ArcRecord.Plain (exUrn k) := by
  intro k
  have : ∀ n < 6, ArcRecord.Plain (lit "<urn:uuid:" ++ (lit "abcdef").take n ++ lit ">") := by
    unfold ArcRecord.Plain; decide
  exact this _ (Nat.mod_lt _ (by decide))

theorem exArcTurn_archived : ArcArchived IsMember 64 exArcTurn (arcPlacements 0 [(exArcInfo, none), (exArcTidy, some exHttpHead)]) := by
  refine .plain exArcTurn _ ?_ rfl ⟨by decide, by simp [exArcTurn], .inr ⟨rfl, by decide⟩⟩
  intro x hx
  simp only [List.mem_cons, List.not_mem_nil, or_false] at hx
  rcases hx with rfl | rfl
  · exact exArcInfo_good
  · exact exArcTidy_good

theorem exArcTidy_http : exArcTidy.Http {} := ⟨by decide, lit "http://x/a", rfl, .inl (by decide)⟩

theorem exArcTidy_head : HeadWithin 64 exArcTidy.block ∧ lineText (takeLine exArcTidy.block) ≠ [] ∧ HttpHead exArcTidy.block exHttpHead (utf8Encode (lit "xy")) :=
  ⟨.line (by decide +kernel) (by decide +kernel) (.line (by decide +kernel) (by decide +kernel) (.blank (by decide +kernel) (by decide +kernel) (by decide +kernel))), by decide +kernel,
    ⟨by decide +kernel, by decide +kernel, by decide +kernel, by decide +kernel, by decide +kernel⟩⟩

theorem exArcTidy_content : exArcTidy.Content toyCoded 64 (utf8Encode (lit "xy")) :=
  .http exHttpHead _ _ exArcTidy_http exArcTidy_head.1 exArcTidy_head.2.1 exArcTidy_head.2.2 (.inl (by decide)) (.plain none _ _ (by decide +kernel) (by
    have : firstValue (lit "content-encoding") exHttpHead.headers = none := by decide +kernel
    rw [this]; exact .none) (.none _))

/-- The hypotheses of `C86_check_partial`, `C86_index_partial`, `C86_extract_partial`, `C86_cli_partial` and `C78_lookup_partial`. -/
example : (∀ k, ArcRecord.Plain (exUrn k)) ∧ ArcArchived IsMember 64 exArcTurn (arcPlacements 0 [(exArcInfo, none), (exArcTidy, some exHttpHead)]) ∧
    (∀ y ∈ arcPlacements 0 [(exArcInfo, none), (exArcTidy, some exHttpHead)], (∃ p, y.record.Convertible (opts exUrn) 64 p) ∧ ArcCheckable toyCoded 64 y.record ∧ y.record.Timed ∧
      ArcIndexable exLasting 64 y ∧ ∃ data, ArcPrinted toyCoded y.record 64 true false data) ∧
    ∀ n ∈ exLasting, Lasting n ∧ PyUni.lower (lit "WARC-Record-ID") ≠ PyUni.lower n := by
  refine ⟨exUrn_plain, exArcTurn_archived, ?_, ?_⟩
  · intro y hy
    simp only [arcPlacements, List.mem_cons, List.not_mem_nil, or_false] at hy
    rcases hy with rfl | rfl
    · have hn : ¬ exArcInfo.Http {} := fun h => h.1 (by decide)
      exact ⟨⟨_, convertible_mono (by decide) (exArcInfo_convertible _)⟩, ⟨⟨_, .whole (.inl hn)⟩, fun h => absurd h hn⟩, ⟨{ year := 2005, month := 6, day := 14, hour := 7, minute := 1, second := 59 }, by constructor <;> decide, by decide, by decide, by decide +kernel⟩,
        fun _ => .none (.inl (fun h => h.1 (by decide))), _, .payload _ _ (fun h => absurd h hn) (.whole (.inl hn))⟩
    · exact ⟨⟨_, convertible_mono (by decide) (exArcTidy_convertible _)⟩, ⟨⟨_, exArcTidy_content⟩, fun _ => Nat.le_refl _⟩, ⟨{ year := 2005, month := 6, day := 14, hour := 7, minute := 2, second := 0 }, by constructor <;> decide, by decide, by decide, by decide +kernel⟩,
        fun _ => .head exHttpHead (utf8Encode (lit "xy")) ⟨by decide, lit "http://x/a", .plain _ (noBrackets (by decide)), .inl (by decide)⟩ exArcTidy_head.1 exArcTidy_head.2.1 exArcTidy_head.2.2 (.inl (by decide)),
        _, .payload _ _ (fun _ => Nat.le_refl _) exArcTidy_content⟩
  · intro n hn
    refine ⟨exLasting_lasting n hn, ?_⟩
    revert n; decide

end
end Warcio.Props
