import Verif.Proofs.Yields
import Verif.Proofs.TameIter
import Verif.Proofs.Ready

/-!
# Properties C32–C39: iterating over archives

Specification: `Verif/Spec/Archive.lean`.  A *plan* is what the user does: a list of operations
(`read`, `readline`, `get_record_offset`, `get_record_length`, `read_to_end`, `err_count`) for each
step of the iteration.  `Yields` says which results are right in terms of the records of the file.
-/

set_option linter.unusedSectionVars false

namespace Warcio.Props

open Warcio ArchiveIter BufReader

section
variable [Zlib] [Hashlib] [PyUni] {IsMember : Bytes → Bytes → Prop}

/-- Records that are well-formed, and options with which iterating raises nothing: HTTP headers
are not verified (the default), and digests, if they are checked, are not checked with `'raise'`
and are texts of digests. -/
structure Fit (io : IterOpts) (ws : List WarcRecord) : Prop where
  good : ∀ w ∈ ws, w.Good
  quiet : ∀ w ∈ ws, Quiet { checkDigests := io.checkDigests } w.headers
  verify : io.verifyHttp = false

/-- The block size is at least 2 and so is the first short read, see `C04`.  Lines of up to `m`
bytes are read whole if blocks have at least `m` bytes and there are no short reads. -/
structure Reads (f : FileObj) (bs m : Nat) : Prop where
  block : 2 ≤ bs
  first : ∀ c, f.caps.head? = some c → 2 ≤ c
  lines : m = 0 ∨ (f.caps = [] ∧ m ≤ bs)

/-- The user's operations have no negative arguments. -/
def PlanOk (plan : List (List UserOp)) : Prop := ∀ ops ∈ plan, ∀ o ∈ ops, o.nonneg

theorem lineLaw_mono {σ : Type} [PyStream σ] {W : σ → Bytes → Prop} {m n : Nat} (h : LineLaw W n) (hm : m ≤ n) : LineLaw W m := by
  intro s rem h1 h2 h3 k
  exact h h1 h2 (by omega) k

theorem plain_ready (L : LawfulGzip IsMember) {f : FileObj} {io : IterOpts} {ws : List WarcRecord} (hw : Fit io ws) {tl : Bytes}
    (hf : f.rest = ws.flatMap WarcRecord.bytes ++ tl) (ht : Starts tl) (hl : f.rest ≠ [] → 2 ≤ f.rest.length) (hm : ¬ [0x1f, 0x8b] <+: f.rest)
    {bs m : Nat} (hr : Reads f bs m) {kf : Option Format} (hk : kf ≠ some .arc) :
    ∃ it, openArchive f io bs kf = .ok it ∧ Ready false (if tl = [] then some .stopIteration else none) it (WarcRecord.placed io m f.origin ws) := by
  have hlay := WarcRecord.layout hw.verify m ws f.origin hw.good hw.quiet
  have hb := WarcRecord.bytesOf_items tl ws
  rw [← hb] at hf
  rw [hf] at hl hm
  have hgo : ∀ {V : Source → Bytes → Prop}, ShortRead V → V (Source.of f) f.rest →
      (∀ T N, LineLaw (PlainAt V T N bs) m) → ∃ it, openArchive f io bs kf = .ok it ∧
      Ready false (if tl = [] then some .stopIteration else none) it (WarcRecord.placed io m f.origin ws) := by
    intro V hV v1 hX
    obtain ⟨it, k1, k2, k3⟩ := open_plain (m := m) (K := (· ≠ some .arc)) L v1 hr.block hr.first hk hlay hf hl hm
    refine ⟨it, k1, _, _, (plain_machine L hV ht (hX _ _)).mono (fun _ h => h.1), ?_, _, _, next_start k2, k3⟩
    intro l hl0
    split at hl0
    · rename_i h0; subst h0; cases hl0; exact plain_stops L hV
    · cases hl0
  rcases hr.lines with rfl | ⟨hc, hmb⟩
  · exact hgo Source.shortRead (Source.of_view f).1 (fun _ _ => lineLaw_zero)
  · exact hgo Source.fullShort (Source.of_full hc)
      (fun _ _ => lineLaw_mono (plainAt_lineLaw L Source.fullShort Source.fullRead) hmb)

theorem plain_yields (L : LawfulGzip IsMember) {f : FileObj} {io : IterOpts} {ws : List WarcRecord} (hw : Fit io ws) {tl : Bytes}
    (hf : f.rest = ws.flatMap WarcRecord.bytes ++ tl) (ht : Starts tl) (hl : f.rest ≠ [] → 2 ≤ f.rest.length) (hm : ¬ [0x1f, 0x8b] <+: f.rest)
    {bs m : Nat} (hr : Reads f bs m) {kf : Option Format} (hk : kf ≠ some .arc) :
    ∃ it, openArchive f io bs kf = .ok it ∧ ∀ plan, PlanOk plan → (plan.length ≤ ws.length ∨ tl = []) →
      Yields .stopIteration (WarcRecord.placed io m f.origin ws) plan (iterate it plan) := by
  obtain ⟨it, k1, k2⟩ := plain_ready L hw hf ht hl hm hr hk
  refine ⟨it, k1, fun plan hp hc => k2.yields ?_ (fun ops h o ho => ⟨hp ops h o ho, fun h => by cases h⟩)⟩
  rw [WarcRecord.placed_length]
  exact hc.imp id (fun h => by rw [if_pos h])

theorem two_le {ws : List WarcRecord} (hg : ∀ w ∈ ws, w.Good) (h : ws ≠ []) (tl : Bytes) : 2 ≤ (ws.flatMap WarcRecord.bytes ++ tl).length := by
  cases ws with
  | nil => exact absurd rfl h
  | cons w ws =>
    have := (hg w (by simp)).two
    simp only [List.flatMap_cons, List.length_append]
    omega

theorem no_magic {ws : List WarcRecord} (hg : ∀ w ∈ ws, w.Good) (h : ws ≠ []) (tl : Bytes) : ¬ [0x1f, 0x8b] <+: ws.flatMap WarcRecord.bytes ++ tl := by
  cases ws with
  | nil => exact absurd rfl h
  | cons w ws =>
    have := startsWarc_magic ((hg w (by simp)).starts (w.block ++ w.sep ++ (ws.flatMap WarcRecord.bytes ++ tl)))
    simpa [WarcRecord.bytes] using this

/-! ## C32 -/

/-- C32: iterating over a file of well-formed records yields exactly these records, in order, and
stops; whatever their blocks are, whatever the user does with them.  `Yields` includes that no
warning is counted, and the positions. -/
theorem C32_records (L : LawfulGzip IsMember) {f : FileObj} {io : IterOpts} {ws : List WarcRecord} (hw : Fit io ws)
    (hf : f.rest = ws.flatMap WarcRecord.bytes) {bs m : Nat} (hr : Reads f bs m) {kf : Option Format} (hk : kf ≠ some .arc) :
    ∃ it, openArchive f io bs kf = .ok it ∧ ∀ plan, PlanOk plan →
      Yields .stopIteration (WarcRecord.placed io m f.origin ws) plan (iterate it plan) := by
  have hf' : f.rest = ws.flatMap WarcRecord.bytes ++ [] := by rw [hf, List.append_nil]
  have h0 : ws = [] → f.rest = [] := by rintro rfl; exact hf
  have hm : ¬ [0x1f, 0x8b] <+: f.rest := by
    by_cases h : ws = []
    · rw [h0 h]; simp
    · rw [hf']; exact no_magic hw.good h []
  have hl : f.rest ≠ [] → 2 ≤ f.rest.length := by
    intro h
    rw [hf']
    exact two_le hw.good (fun h1 => h (h0 h1)) []
  obtain ⟨it, k1, k2⟩ := plain_yields L hw hf' (.inl rfl) hl hm hr hk
  exact ⟨it, k1, fun plan hp => k2 plan hp (.inr rfl)⟩

/-! ## C33 -/

/-- C33: the offset reported for a record is the position of its first byte, and the size is that
of its header block and block, whenever in the plan they are asked for. -/
theorem C33_positions (L : LawfulGzip IsMember) {f : FileObj} {io : IterOpts} {us vs : List WarcRecord} {w : WarcRecord} (hw : Fit io (us ++ w :: vs))
    (hf : f.rest = (us ++ w :: vs).flatMap WarcRecord.bytes) {bs m : Nat} (hr : Reads f bs m) {kf : Option Format} (hk : kf ≠ some .arc) :
    ∃ it, openArchive f io bs kf = .ok it ∧ ∀ plan, PlanOk plan → ∀ ops, plan[us.length]? = some ops →
      ∃ rec rs, (iterate it plan)[us.length]? = some (.ok (some rec, rs)) ∧
        ∀ j : Nat, (ops[j]? = some .offset → rs[j]? = some (.ok (.int (f.origin + len (us.flatMap WarcRecord.bytes))))) ∧
          (ops[j]? = some .size → rs[j]? = some (.ok (.int (len (w.head ++ w.block))))) := by
  obtain ⟨it, k1, k2⟩ := C32_records L hw hf hr hk
  refine ⟨it, k1, ?_⟩
  intro plan hp ops ho
  have h := k2 plan hp
  rw [WarcRecord.placed_append] at h
  have hlen := WarcRecord.placed_length (io := io) (m := m) us f.origin
  obtain ⟨rec, left, rs, q1, _, q3⟩ := h.get (by rw [hlen]; exact ho)
  rw [hlen] at q1
  refine ⟨rec, rs, q1, fun j => ?_⟩
  have := q3.offset_at j
  simpa [len, WarcRecord.expected] using this

/-- C33: for a file with positions, these are the bytes at this place, and an iterator over the
file opened there yields this record first. -/
theorem C33_seek (L : LawfulGzip IsMember) {f : FileObj} (hs : f.seekable = true) {io : IterOpts} {us vs : List WarcRecord} {w : WarcRecord}
    (hw : Fit io (us ++ w :: vs)) (hf : f.rest = (us ++ w :: vs).flatMap WarcRecord.bytes) {off : Nat}
    (ho : (off : Int) = f.origin + len (us.flatMap WarcRecord.bytes)) {bs m : Nat} (hr : Reads f bs m) {kf : Option Format} (hk : kf ≠ some .arc) :
    (f.content.drop off).take (w.head ++ w.block).length = w.head ++ w.block ∧
    ∃ g it, f.seek off = .ok g ∧ openArchive g io bs kf = .ok it ∧ ∀ plan, PlanOk plan →
      Yields .stopIteration (WarcRecord.placed io m off (w :: vs)) plan (iterate it plan) := by
  have horig : f.origin = (f.pos : Int) := by unfold FileObj.origin; rw [if_pos hs]
  have hoff : off = f.pos + (us.flatMap WarcRecord.bytes).length := by
    rw [horig] at ho; simp only [len] at ho; omega
  have hdrop : f.content.drop off = (w :: vs).flatMap WarcRecord.bytes := by
    have : f.content.drop off = f.rest.drop (us.flatMap WarcRecord.bytes).length := by
      rw [FileObj.rest, List.drop_drop, hoff]
    rw [this, hf, List.flatMap_append, List.drop_left]
  refine ⟨?_, { f with pos := off }, ?_⟩
  · rw [hdrop]
    simp only [List.flatMap_cons, WarcRecord.bytes]
    rw [List.append_assoc (w.head ++ w.block), List.take_left]
  · have hw' : Fit io (w :: vs) := ⟨fun x hx => hw.good x (List.mem_append_right _ hx), fun x hx => hw.quiet x (List.mem_append_right _ hx), hw.verify⟩
    obtain ⟨it, k1, k2⟩ := C32_records (f := { f with pos := off }) L hw' hdrop (bs := bs) (m := m) ⟨hr.block, hr.first, hr.lines⟩ hk
    refine ⟨it, by unfold FileObj.seek; rw [if_pos hs], k1, ?_⟩
    have : ({ f with pos := off } : FileObj).origin = (off : Int) := by unfold FileObj.origin; rw [if_pos hs]
    rw [this] at k2
    exact k2

/-! ## C34 -/

/-- Short reads, or none and members that are decompressed steadily (as all are that fit a block, `steady_of_le`). -/
structure ReadsGz [Zlib] (f : FileObj) (bs m : Nat) (zs : List Bytes) : Prop where
  block : 0 < bs
  lines : m = 0 ∨ (f.caps = [] ∧ ∀ z ∈ zs, Steady bs m z)

theorem ReadsGz.fit [Zlib] {f : FileObj} {bs m : Nat} {zs : List Bytes} (hb : 0 < bs) (hc : f.caps = []) (h : ∀ z ∈ zs, z.length ≤ bs) : ReadsGz f bs m zs :=
  ⟨hb, .inr ⟨hc, steady_all h⟩⟩

theorem gz_ready (L : LawfulGzip IsMember) {f : FileObj} {io : IterOpts} {ms : List (Bytes × WarcRecord)} (hw : Fit io (ms.map (·.2)))
    (hz : ∀ x ∈ ms, IsMember x.1 x.2.bytes) {tl : Bytes} (hf : f.rest = ms.flatMap (·.1) ++ tl) (hne : ms ≠ [])
    {bs m : Nat} (hr : ReadsGz f bs m (ms.map (·.1))) {kf : Option Format} (hk : kf ≠ some .arc) :
    ∃ it, openArchive f io bs kf = .ok it ∧ Ready false (if tl = [] then some .stopIteration else none) it (WarcRecord.placedGz io m f.origin ms) := by
  cases ms with
  | nil => exact absurd rfl hne
  | cons x ms =>
    obtain ⟨z, w⟩ := x
    have hg : ∀ x ∈ (z, w) :: ms, x.2.Good := fun x hx => hw.good _ (List.mem_map.2 ⟨x, hx, rfl⟩)
    have hq : ∀ x ∈ (z, w) :: ms, Quiet { checkDigests := io.checkDigests } x.2.headers := fun x hx => hw.quiet _ (List.mem_map.2 ⟨x, hx, rfl⟩)
    have hgo : ∀ {V : Source → Bytes → Prop} {Q : Bytes → Prop}, ShortRead V → V (Source.of f) f.rest → (∀ x ∈ (z, w) :: ms, Q x.1) →
        (∀ T rest, LineLaw (GzAt L V T bs Q rest) m) → ∃ it, openArchive f io bs kf = .ok it ∧
        Ready false (if tl = [] then some .stopIteration else none) it (WarcRecord.placedGz io m f.origin ((z, w) :: ms)) := by
      intro V Q hV v1 hQ hX
      have hlay := WarcRecord.layoutGz (IsMember := IsMember) (Q := Q) hw.verify m ms (f.origin + len z)
        (fun x hx => ⟨hz x (by simp [hx]), hQ x (by simp [hx])⟩) (fun x hx => hg x (by simp [hx])) (fun x hx => hq x (by simp [hx]))
      obtain ⟨it, k1, k2, k3⟩ := open_gz (m := m) (K := (· ≠ some .arc)) (tl := tl) (multi := false) (more := []) (i := w.item)
        (e := w.expected io m f.origin (len z)) L v1 hr.block hk
        (by rw [WarcRecord.item_bytes, List.append_nil]; exact hz (z, w) (by simp)) (hQ (z, w) (by simp))
        ⟨(hg (z, w) (by simp)).sep, rfl, rfl, (hg (z, w) (by simp)).item hw.verify (hq (z, w) (by simp)) m⟩ rfl (fun _ => rfl) rfl (.inl ⟨rfl, rfl⟩) hlay
        (by rw [WarcRecord.zipped_items, hf, List.flatMap_cons, List.append_assoc])
      refine ⟨it, k1, _, _, gz_machine (multi := false) L hV (hX _), ?_, _, _, next_start k2, k3⟩
      intro l hl0
      split at hl0
      · rename_i h0; subst h0; cases hl0; exact gz_stops L hV
      · cases hl0
    rcases hr.lines with rfl | ⟨hc, hmb⟩
    · exact hgo (Q := fun _ => True) Source.shortRead (Source.of_view f).1 (fun _ _ => trivial) (fun _ _ => lineLaw_zero)
    · exact hgo (Q := Steady bs m) Source.fullShort (Source.of_full hc) (fun x hx => hmb _ (List.mem_map.2 ⟨x, hx, rfl⟩))
        (fun _ rest => gzAt_lineLaw L Source.fullShort Source.fullRead (fun _ h => h) rest)

theorem gz_yields (L : LawfulGzip IsMember) {f : FileObj} {io : IterOpts} {ms : List (Bytes × WarcRecord)} (hw : Fit io (ms.map (·.2)))
    (hz : ∀ x ∈ ms, IsMember x.1 x.2.bytes) {tl : Bytes} (hf : f.rest = ms.flatMap (·.1) ++ tl) (hne : ms ≠ [])
    {bs m : Nat} (hr : ReadsGz f bs m (ms.map (·.1))) {kf : Option Format} (hk : kf ≠ some .arc) :
    ∃ it, openArchive f io bs kf = .ok it ∧ ∀ plan, PlanOk plan → (plan.length ≤ ms.length ∨ tl = []) →
      Yields .stopIteration (WarcRecord.placedGz io m f.origin ms) plan (iterate it plan) := by
  obtain ⟨it, k1, k2⟩ := gz_ready L hw hz hf hne hr hk
  refine ⟨it, k1, fun plan hp hc => k2.yields ?_ (fun ops h o ho => ⟨hp ops h o ho, fun h => by cases h⟩)⟩
  rw [WarcRecord.placedGz_length]
  exact hc.imp id (fun h => by rw [if_pos h])

/-- C34: iterating over a file in which each record is a gzip member of its own yields exactly
these records, in order, with the positions and sizes of the members, and stops. -/
theorem C34_records (L : LawfulGzip IsMember) {f : FileObj} {io : IterOpts} {ms : List (Bytes × WarcRecord)} (hw : Fit io (ms.map (·.2)))
    (hz : ∀ x ∈ ms, IsMember x.1 x.2.bytes) (hne : ms ≠ []) (hf : f.rest = ms.flatMap (·.1)) {bs m : Nat}
    (hr : ReadsGz f bs m (ms.map (·.1))) {kf : Option Format} (hk : kf ≠ some .arc) :
    ∃ it, openArchive f io bs kf = .ok it ∧ ∀ plan, PlanOk plan →
      Yields .stopIteration (WarcRecord.placedGz io m f.origin ms) plan (iterate it plan) := by
  obtain ⟨it, k1, k2⟩ := gz_yields (tl := []) L hw hz (by rw [hf, List.append_nil]) hne hr hk
  exact ⟨it, k1, fun plan hp => k2 plan hp (.inr rfl)⟩

/-- C34: the compressed file looks like the uncompressed one: the same records, and the same
results of `read` calls, step by step. -/
theorem C34_same (L : LawfulGzip IsMember) {f g : FileObj} {io : IterOpts} {ms : List (Bytes × WarcRecord)} (hw : Fit io (ms.map (·.2)))
    (hz : ∀ x ∈ ms, IsMember x.1 x.2.bytes) (hne : ms ≠ []) (hf : f.rest = ms.flatMap (·.1)) (hg : g.rest = (ms.map (·.2)).flatMap WarcRecord.bytes)
    {bs bs' m : Nat} (hr : ReadsGz f bs m (ms.map (·.1))) (hr' : Reads g bs' m) (hs : ∀ x ∈ ms, x.2.Settled io m)
    {kf kf' : Option Format} (hk : kf ≠ some .arc) (hk' : kf' ≠ some .arc) :
    ∃ it it', openArchive f io bs kf = .ok it ∧ openArchive g io bs' kf' = .ok it' ∧ ∀ plan, PlanOk plan → ∀ i < plan.length,
      ((iterate it plan)[i]?).map Step.record = ((iterate it' plan)[i]?).map Step.record ∧
      ((∀ o ∈ plan[i]?.getD [], o.exact ∧ o.placeless) → ((iterate it plan)[i]?).map Step.seen = ((iterate it' plan)[i]?).map Step.seen) := by
  obtain ⟨it, k1, k2⟩ := C34_records L hw hz hne hf hr hk
  obtain ⟨it', k3, k4⟩ := C32_records L hw hg hr' hk'
  refine ⟨it, it', k1, k3, ?_⟩
  intro plan hp i hi
  have hpi : plan[i]? = some plan[i] := List.getElem?_eq_getElem hi
  have := (k2 plan hp).same (k4 plan hp) (WarcRecord.alike_mixed ms _ _ hs) i hpi hpi
  refine ⟨this.1, fun hx => this.2 rfl (fun o ho => (hx o (by rw [hpi]; exact ho)).1) (.inr (fun o ho => (hx o (by rw [hpi]; exact ho)).2))⟩

/-- C33 for gzip: offset and size are those of the member. -/
theorem C33_gzip_positions (L : LawfulGzip IsMember) {f : FileObj} {io : IterOpts} {us vs : List (Bytes × WarcRecord)} {z : Bytes} {w : WarcRecord}
    (hw : Fit io ((us ++ (z, w) :: vs).map (·.2))) (hz : ∀ x ∈ us ++ (z, w) :: vs, IsMember x.1 x.2.bytes)
    (hf : f.rest = (us ++ (z, w) :: vs).flatMap (·.1)) {bs m : Nat} (hr : ReadsGz f bs m ((us ++ (z, w) :: vs).map (·.1)))
    {kf : Option Format} (hk : kf ≠ some .arc) :
    ∃ it, openArchive f io bs kf = .ok it ∧ ∀ plan, PlanOk plan → ∀ ops, plan[us.length]? = some ops →
      ∃ rec rs, (iterate it plan)[us.length]? = some (.ok (some rec, rs)) ∧
        ∀ j : Nat, (ops[j]? = some .offset → rs[j]? = some (.ok (.int (f.origin + len (us.flatMap (·.1)))))) ∧
          (ops[j]? = some .size → rs[j]? = some (.ok (.int (len z)))) := by
  obtain ⟨it, k1, k2⟩ := C34_records L hw hz (by simp) hf hr hk
  refine ⟨it, k1, ?_⟩
  intro plan hp ops ho
  have h := k2 plan hp
  rw [WarcRecord.placedGz_append] at h
  have hlen := WarcRecord.placedGz_length (io := io) (m := m) us f.origin
  obtain ⟨rec, left, rs, q1, _, q3⟩ := h.get (by rw [hlen]; exact ho)
  rw [hlen] at q1
  refine ⟨rec, rs, q1, fun j => ?_⟩
  exact q3.offset_at j

/-- C33 for gzip: the member is at this place, and an iterator over the file opened there yields
its record first. -/
theorem C33_gzip_seek (L : LawfulGzip IsMember) {f : FileObj} (hs : f.seekable = true) {io : IterOpts} {us vs : List (Bytes × WarcRecord)} {z : Bytes} {w : WarcRecord}
    (hw : Fit io ((us ++ (z, w) :: vs).map (·.2))) (hz : ∀ x ∈ us ++ (z, w) :: vs, IsMember x.1 x.2.bytes)
    (hf : f.rest = (us ++ (z, w) :: vs).flatMap (·.1)) {off : Nat} (ho : (off : Int) = f.origin + len (us.flatMap (·.1)))
    {bs m : Nat} (hr : ReadsGz f bs m ((us ++ (z, w) :: vs).map (·.1))) {kf : Option Format} (hk : kf ≠ some .arc) :
    (f.content.drop off).take z.length = z ∧
    ∃ g it, f.seek off = .ok g ∧ openArchive g io bs kf = .ok it ∧ ∀ plan, PlanOk plan →
      Yields .stopIteration (WarcRecord.placedGz io m off ((z, w) :: vs)) plan (iterate it plan) := by
  have horig : f.origin = (f.pos : Int) := by unfold FileObj.origin; rw [if_pos hs]
  have hoff : off = f.pos + (us.flatMap (·.1)).length := by
    rw [horig] at ho; simp only [len] at ho; omega
  have hdrop : f.content.drop off = ((z, w) :: vs).flatMap (·.1) := by
    have : f.content.drop off = f.rest.drop (us.flatMap (·.1)).length := by
      rw [FileObj.rest, List.drop_drop, hoff]
    rw [this, hf, List.flatMap_append, List.drop_left]
  refine ⟨?_, { f with pos := off }, ?_⟩
  · rw [hdrop, List.flatMap_cons, List.take_left]
  · have hw' : Fit io (((z, w) :: vs).map (·.2)) :=
      ⟨fun x hx => hw.good x (by rw [List.map_append]; exact List.mem_append_right _ hx),
       fun x hx => hw.quiet x (by rw [List.map_append]; exact List.mem_append_right _ hx), hw.verify⟩
    obtain ⟨it, k1, k2⟩ := C34_records (f := { f with pos := off }) L hw' (fun x hx => hz x (List.mem_append_right _ hx)) (by simp) hdrop
      (bs := bs) (m := m) ⟨hr.block, hr.lines.imp id (fun h => ⟨h.1, fun x hx => h.2 x (by rw [List.map_append]; exact List.mem_append_right _ hx)⟩)⟩ hk
    refine ⟨it, by unfold FileObj.seek; rw [if_pos hs], k1, ?_⟩
    have : ({ f with pos := off } : FileObj).origin = (off : Int) := by unfold FileObj.origin; rw [if_pos hs]
    rw [this] at k2
    exact k2

/-! ## C35 -/

/-- C35: two users who do different things with the records see the same records at every step;
and where they do the same, they get the same results. -/
theorem C35_independent (L : LawfulGzip IsMember) {f : FileObj} {io : IterOpts} {ws : List WarcRecord} (hw : Fit io ws)
    (hf : f.rest = ws.flatMap WarcRecord.bytes) {bs m : Nat} (hr : Reads f bs m) (hs : ∀ w ∈ ws, w.Settled io m)
    {kf : Option Format} (hk : kf ≠ some .arc) :
    ∃ it, openArchive f io bs kf = .ok it ∧ ∀ plan plan', PlanOk plan → PlanOk plan' → ∀ (i : Nat) (ops ops' : List UserOp),
      plan[i]? = some ops → plan'[i]? = some ops' →
      ((iterate it plan)[i]?).map Step.record = ((iterate it plan')[i]?).map Step.record ∧
      (ops = ops' → (∀ o ∈ ops, o.exact) → ((iterate it plan)[i]?).map Step.seen = ((iterate it plan')[i]?).map Step.seen) := by
  obtain ⟨it, k1, k2⟩ := C32_records L hw hf hr hk
  refine ⟨it, k1, ?_⟩
  intro plan plan' hp hp' i ops ops' ho ho'
  have := (k2 plan hp).same (k2 plan' hp') (WarcRecord.alike_placed ws _ hs) i ho ho'
  exact ⟨this.1, fun h1 h2 => this.2 h1 h2 (.inl trivial)⟩

/-- C35 for gzip. -/
theorem C35_gzip_independent (L : LawfulGzip IsMember) {f : FileObj} {io : IterOpts} {ms : List (Bytes × WarcRecord)} (hw : Fit io (ms.map (·.2)))
    (hz : ∀ x ∈ ms, IsMember x.1 x.2.bytes) (hne : ms ≠ []) (hf : f.rest = ms.flatMap (·.1)) {bs m : Nat}
    (hr : ReadsGz f bs m (ms.map (·.1))) (hs : ∀ x ∈ ms, x.2.Settled io m) {kf : Option Format} (hk : kf ≠ some .arc) :
    ∃ it, openArchive f io bs kf = .ok it ∧ ∀ plan plan', PlanOk plan → PlanOk plan' → ∀ (i : Nat) (ops ops' : List UserOp),
      plan[i]? = some ops → plan'[i]? = some ops' →
      ((iterate it plan)[i]?).map Step.record = ((iterate it plan')[i]?).map Step.record ∧
      (ops = ops' → (∀ o ∈ ops, o.exact) → ((iterate it plan)[i]?).map Step.seen = ((iterate it plan')[i]?).map Step.seen) := by
  obtain ⟨it, k1, k2⟩ := C34_records L hw hz hne hf hr hk
  refine ⟨it, k1, ?_⟩
  intro plan plan' hp hp' i ops ops' ho ho'
  have := (k2 plan hp).same (k2 plan' hp') (WarcRecord.alike_placedGz ms _ hs) i ho ho'
  exact ⟨this.1, fun h1 h2 => this.2 h1 h2 (.inl trivial)⟩

/-! ## C36 -/

/-- C36, in part: two files with the same bytes, read with different block sizes and different
short reads, give the same steps, if HTTP headers are not parsed; or if they are and their lines
fit the blocks and there are no short reads.  What is missing is false: see
`C36_small_blocks` and `C36_short_reads`. -/
theorem C36_blocks_partial (L : LawfulGzip IsMember) {f g : FileObj} {io : IterOpts} {ws : List WarcRecord} (hw : Fit io ws)
    (hf : f.rest = ws.flatMap WarcRecord.bytes) (hg : g.rest = f.rest) (ho : g.origin = f.origin) {bs bs' m : Nat} (hr : Reads f bs m)
    (hr' : Reads g bs' m) (hs : ∀ w ∈ ws, w.Settled io m) {kf : Option Format} (hk : kf ≠ some .arc) :
    ∃ it it', openArchive f io bs kf = .ok it ∧ openArchive g io bs' kf = .ok it' ∧ ∀ plan, PlanOk plan → (∀ ops ∈ plan, ∀ o ∈ ops, o.exact) →
      (iterate it plan).map Step.seen = (iterate it' plan).map Step.seen := by
  obtain ⟨it, k1, k2⟩ := C32_records L hw hf hr hk
  obtain ⟨it', k3, k4⟩ := C32_records L hw (hg.trans hf) hr' hk
  refine ⟨it, it', k1, k3, ?_⟩
  intro plan hp hx
  apply List.ext_getElem?
  intro i
  rw [List.getElem?_map, List.getElem?_map]
  have h1 := k2 plan hp
  have h2 := k4 plan hp
  rw [ho] at h2
  by_cases hi : i < plan.length
  · have hpi : plan[i]? = some plan[i] := List.getElem?_eq_getElem hi
    exact (h1.same h2 (WarcRecord.alike_placed ws _ hs) i hpi hpi).2 rfl (hx _ (List.getElem_mem hi)) (.inl trivial)
  · rw [List.getElem?_eq_none (by rw [h1.length]; omega), List.getElem?_eq_none (by rw [h2.length]; omega)]

/-- C36 for gzip, in the same part. -/
theorem C36_gzip_blocks_partial (L : LawfulGzip IsMember) {f g : FileObj} {io : IterOpts} {ms : List (Bytes × WarcRecord)} (hw : Fit io (ms.map (·.2)))
    (hz : ∀ x ∈ ms, IsMember x.1 x.2.bytes) (hne : ms ≠ []) (hf : f.rest = ms.flatMap (·.1)) (hg : g.rest = f.rest) (ho : g.origin = f.origin)
    {bs bs' m : Nat} (hr : ReadsGz f bs m (ms.map (·.1))) (hr' : ReadsGz g bs' m (ms.map (·.1))) (hs : ∀ x ∈ ms, x.2.Settled io m)
    {kf : Option Format} (hk : kf ≠ some .arc) :
    ∃ it it', openArchive f io bs kf = .ok it ∧ openArchive g io bs' kf = .ok it' ∧ ∀ plan, PlanOk plan → (∀ ops ∈ plan, ∀ o ∈ ops, o.exact) →
      (iterate it plan).map Step.seen = (iterate it' plan).map Step.seen := by
  obtain ⟨it, k1, k2⟩ := C34_records L hw hz hne hf hr hk
  obtain ⟨it', k3, k4⟩ := C34_records L hw hz hne (hg.trans hf) hr' hk
  refine ⟨it, it', k1, k3, ?_⟩
  intro plan hp hx
  apply List.ext_getElem?
  intro i
  rw [List.getElem?_map, List.getElem?_map]
  have h1 := k2 plan hp
  have h2 := k4 plan hp
  rw [ho] at h2
  by_cases hi : i < plan.length
  · have hpi : plan[i]? = some plan[i] := List.getElem?_eq_getElem hi
    exact (h1.same h2 (WarcRecord.alike_placedGz ms _ hs) i hpi hpi).2 rfl (hx _ (List.getElem_mem hi)) (.inl trivial)
  · rw [List.getElem?_eq_none (by rw [h1.length]; omega), List.getElem?_eq_none (by rw [h2.length]; omega)]

/-! ## C37 -/

theorem multi_ready (L : LawfulGzip IsMember) {f : FileObj} {io : IterOpts} {w w' : WarcRecord} {ws : List WarcRecord}
    (hw : Fit io (w :: w' :: ws)) (hz : IsMember f.rest ((w :: w' :: ws).flatMap WarcRecord.bytes)) {bs m : Nat} (hr : ReadsGz f bs m [f.rest])
    {kf : Option Format} (hk : kf ≠ some .arc) :
    ∃ it, openArchive f io bs kf = .ok it ∧
      Ready true (some .nonChunkedGzip) it [w.expected io m f.origin 0] := by
  have hi := (hw.good w (by simp)).item hw.verify (hw.quiet w (by simp)) m
  have hi' := (hw.good w' (by simp)).item hw.verify (hw.quiet w' (by simp)) m
  have hgo : ∀ {V : Source → Bytes → Prop} {Q : Bytes → Prop}, ShortRead V → V (Source.of f) f.rest → Q f.rest →
      (∀ T rest, LineLaw (GzAt L V T bs Q rest) m) → ∃ it, openArchive f io bs kf = .ok it ∧
      Ready true (some .nonChunkedGzip) it [w.expected io m f.origin 0] := by
    intro V Q hV v1 hQ hX
    obtain ⟨it, k1, k2, k3⟩ := open_gz (m := m) (K := (· ≠ some .arc)) (tl := []) (multi := true) (more := (w' :: ws).flatMap WarcRecord.bytes) (i := w.item)
      (Q := Q) (z := f.rest) (ms := []) (es := [])
      (e := w.expected io m f.origin 0) L v1 hr.block hk
      (by rw [WarcRecord.item_bytes]; exact hz) hQ ⟨(hw.good w (by simp)).sep, rfl, rfl, hi⟩ rfl (fun h => by cases h) rfl
      (.inr ⟨rfl, ⟨rfl, rfl⟩, w'.item, w'.sep ++ ws.flatMap WarcRecord.bytes, by simp [WarcRecord.item, WarcRecord.bytes],
        fun kf id t h => by
          obtain ⟨x, y, a1, a2, _⟩ := hi' kf id t h
          exact ⟨x, y, a1, a2, fun _ _ _ => trivial, fun _ _ _ _ => trivial⟩⟩) trivial
      (by simp [zipped])
    refine ⟨it, k1, _, _, gz_machine (multi := true) L hV (hX _), ?_, _, _, next_start k2, k3⟩
    intro l hl
    cases hl
    exact gz_multi L hV
  rcases hr.lines with rfl | ⟨hc, hmb⟩
  · exact hgo (Q := fun _ => True) Source.shortRead (Source.of_view f).1 trivial (fun _ _ => lineLaw_zero)
  · exact hgo (Q := Steady bs m) Source.fullShort (Source.of_full hc) (hmb _ (by simp))
      (fun _ rest => gzAt_lineLaw L Source.fullShort Source.fullRead (fun _ h => h) rest)

/-- C37, in part: if a gzip file is one member with at least two records, the first record is
yielded and then the file is reported as not chunked.  The size of the record is not asked for (it
would be the rest of the file).  What is missing is false: if another member follows, see
`C37_not_reported`. -/
theorem C37_reported_partial (L : LawfulGzip IsMember) {f : FileObj} {io : IterOpts} {w w' : WarcRecord} {ws : List WarcRecord}
    (hw : Fit io (w :: w' :: ws)) (hz : IsMember f.rest ((w :: w' :: ws).flatMap WarcRecord.bytes)) {bs m : Nat} (hr : ReadsGz f bs m [f.rest])
    {kf : Option Format} (hk : kf ≠ some .arc) :
    ∃ it, openArchive f io bs kf = .ok it ∧ ∀ plan, PlanOk plan → (∀ ops ∈ plan, UserOp.size ∉ ops) →
      Yields .nonChunkedGzip [w.expected io m f.origin 0] plan (iterate it plan) := by
  obtain ⟨it, k1, k2⟩ := multi_ready L hw hz hr hk
  exact ⟨it, k1, fun plan hp hs => k2.yields (.inr rfl) (fun ops h o ho => ⟨hp ops h o ho, fun _ he => hs ops h (he ▸ ho)⟩)⟩

/-! ## C39 -/

/-- C39: a file cut anywhere inside of a record yields all the records before it as if it was
complete.  (`plan` asks for at most as many records.) -/
theorem C39_cut (L : LawfulGzip IsMember) {f : FileObj} {io : IterOpts} {ws : List WarcRecord} {w : WarcRecord} (hw : Fit io ws) (hg : w.Good)
    {t : Bytes} (ht : t <+: w.bytes) (hf : f.rest = ws.flatMap WarcRecord.bytes ++ t) {bs m : Nat} (hr : Reads f bs m)
    {kf : Option Format} (hk : kf ≠ some .arc) :
    ∃ it, openArchive f io bs kf = .ok it ∧ ∀ plan, PlanOk plan → plan.length ≤ ws.length →
      Yields .stopIteration (WarcRecord.placed io m f.origin ws) plan (iterate it plan) := by
  by_cases h : ws = []
  · subst h
    obtain ⟨it, k1⟩ : ∃ it, openArchive f io bs kf = .ok it := by
      refine ⟨_, by simp [openArchive, ArchiveIter.new, BufReader.new, L.codec_eq]; rfl⟩
    refine ⟨it, k1, ?_⟩
    intro plan _ hl
    have : plan = [] := List.length_eq_zero_iff.1 (Nat.le_zero.1 hl)
    subst this
    exact .enough _
  · obtain ⟨it, k1, k2⟩ := plain_yields L hw hf (hg.starts_prefix ht) (fun _ => by rw [hf]; exact two_le hw.good h t)
      (by rw [hf]; exact no_magic hw.good h t) hr hk
    exact ⟨it, k1, fun plan hp hl => k2 plan hp (.inl hl)⟩

/-- C39 for gzip: whatever follows the complete members. -/
theorem C39_gzip_cut (L : LawfulGzip IsMember) {f : FileObj} {io : IterOpts} {ms : List (Bytes × WarcRecord)} (hw : Fit io (ms.map (·.2)))
    (hz : ∀ x ∈ ms, IsMember x.1 x.2.bytes) (hne : ms ≠ []) {t : Bytes} (hf : f.rest = ms.flatMap (·.1) ++ t) {bs m : Nat}
    (hr : ReadsGz f bs m (ms.map (·.1))) {kf : Option Format} (hk : kf ≠ some .arc) :
    ∃ it, openArchive f io bs kf = .ok it ∧ ∀ plan, PlanOk plan → plan.length ≤ ms.length →
      Yields .stopIteration (WarcRecord.placedGz io m f.origin ms) plan (iterate it plan) := by
  obtain ⟨it, k1, k2⟩ := gz_yields L hw hz hf hne hr hk
  exact ⟨it, k1, fun plan hp hl => k2 plan hp (.inl hl)⟩

end

/-! ## C38 -/

/-- C38: iterating over any file comes to an end, whatever the file holds, whatever the options,
and whatever is done with the records: every call returns or raises, there are at most
`(ratio + 1)` times as many records as bytes, and behind the first exception there are no more.
`ratio` is the factor by which decompressors expand at most. -/
theorem C38_terminates [Zlib] [TameZlib] [Hashlib] [PyUni] {f : FileObj} {io : IterOpts} {bs : Nat} {kf : Option Format} {it : ArchiveIter Source}
    (h : openArchive f io bs kf = .ok it) (plan : List (List UserOp)) : Ends ((Zlib.ratio + 1) * f.rest.length) (iterate it plan) := by
  obtain ⟨h1, h2⟩ := openArchive_left h
  rw [← h2]
  exact iterate_ends plan it h1

end Warcio.Props

namespace Warcio.Props
open Warcio ArchiveIter

/-! ## The hypotheses are met, and the claims that fail -/

/-- A response. -/
def exHttp : WarcRecord where
  head := utf8Encode (lit "WARC/1.0\r\nWARC-Type: response\r\nWARC-Target-URI: http://x/\r\nContent-Length: 27\r\n\r\n")
  headers := [(lit "WARC-Type", lit "response"), (lit "WARC-Target-URI", lit "http://x/"), (lit "Content-Length", lit "27")]
  block := utf8Encode (lit "HTTP/1.1 200 OK\r\nA: b\r\n\r\nxy")
  sep := utf8Encode (lit "\r\n\r\n")

/-- A record whose block looks like a record. -/
def exInfo : WarcRecord where
  head := utf8Encode (lit "WARC/1.1\r\nWARC-Type: metadata\r\nContent-Length: 18\r\n\r\n")
  headers := [(lit "WARC-Type", lit "metadata"), (lit "Content-Length", lit "18")]
  block := utf8Encode (lit "\r\n\r\nWARC/1.0\r\n\r\n\r\n")
  sep := utf8Encode (lit "\r\n\r\n")

/-- Both in a file. -/
def exFile : FileObj := { content := [exHttp, exInfo].flatMap WarcRecord.bytes }

/-- The same with each record compressed. -/
def exGz : FileObj := { content := [exHttp, exInfo].flatMap (fun w => Toy.compress w.bytes) }

/-- The same as one member. -/
def exOne : FileObj := { content := Toy.compress exFile.content }

/-- Iterate over a file and do the same with each record. -/
def steps [Zlib] [Hashlib] [PyUni] (f : FileObj) (io : IterOpts) (bs : Nat) (plan : List (List UserOp)) : List Step :=
  match openArchive f io bs with
  | .ok it => iterate it plan
  | .error _ => []

open Toy in
theorem exHttp_good : exHttp.Good where
  head := by
    have h := warcHead_toBytes (h := { statusline := [], protocol := lit "WARC/1.0", headers := exHttp.headers })
      { status_trim := by decide
        status_lf := by decide
        headers := by
          intro h hh
          simp only [exHttp, List.mem_cons, List.not_mem_nil, or_false] at hh
          rcases hh with rfl | rfl | rfl
          all_goals exact ⟨⟨by decide, by decide, by decide, by decide, by decide⟩, by decide, by decide⟩
        protocol := .inl ⟨rfl, goodList_warc, by decide⟩ }
    have e : ({ statusline := [], protocol := lit "WARC/1.0", headers := exHttp.headers } : StatusAndHeaders).toBytes = exHttp.head := by decide +kernel
    rw [e] at h
    exact h
  length := ⟨lit "27", by decide, (parseInt_iff _ _).1 (by decide +kernel)⟩
  uri := fun _ => by decide
  sep := ⟨by decide, ⟨utf8Encode (lit "\r\n\r"), by decide⟩, by decide⟩

open Toy in
theorem exInfo_good : exInfo.Good where
  head := by
    have h := warcHead_toBytes (h := { statusline := [], protocol := lit "WARC/1.1", headers := exInfo.headers })
      { status_trim := by decide
        status_lf := by decide
        headers := by
          intro h hh
          simp only [exInfo, List.mem_cons, List.not_mem_nil, or_false] at hh
          rcases hh with rfl | rfl
          all_goals exact ⟨⟨by decide, by decide, by decide, by decide, by decide⟩, by decide, by decide⟩
        protocol := .inl ⟨rfl, goodList_warc, by decide⟩ }
    have e : ({ statusline := [], protocol := lit "WARC/1.1", headers := exInfo.headers } : StatusAndHeaders).toBytes = exInfo.head := by decide +kernel
    rw [e] at h
    exact h
  length := ⟨lit "18", by decide, (parseInt_iff _ _).1 (by decide +kernel)⟩
  uri := fun h => by rcases h with h | h | h <;> exact absurd h (by decide)
  sep := ⟨by decide, ⟨utf8Encode (lit "\r\n\r"), by decide⟩, by decide⟩

open Toy in
theorem ex_fit : Fit {} [exHttp, exInfo] where
  good := by
    intro w hw
    simp only [List.mem_cons, List.not_mem_nil, or_false] at hw
    rcases hw with rfl | rfl
    · exact exHttp_good
    · exact exInfo_good
  quiet := fun _ _ => .inl rfl
  verify := rfl

open Toy in
theorem exHttp_http : exHttp.Http := by
  refine ⟨lit "http://x/", lit "http://x/", by decide, .plain _ ?_, .inl (by decide), _, rfl, .inl (by decide)⟩
  intro m hm
  have := congrArg List.head? hm
  simp at this
  revert this; decide

open Toy in
/-- The HTTP lines of the response have at most 17 bytes. -/
theorem exHttp_settled : exHttp.Settled {} 17 where
  uri := by
    intro u hu
    have : exHttp.value (lit "WARC-Target-URI") = some (lit "http://x/") := by decide
    rw [this] at hu
    cases hu
    refine ⟨by decide, ?_⟩
    intro m hm
    have := congrArg List.head? hm
    simp at this
    revert this; decide
  http := by
    refine .inr ⟨rfl, exHttp_http, ?_, by decide +kernel, ?_⟩
    · exact .line (by decide +kernel) (by decide +kernel) (.line (by decide +kernel) (by decide +kernel) (.blank (by decide +kernel) (by decide +kernel) (by decide +kernel)))
    · intro h left hh
      left
      rw [hh.status]
      decide +kernel

open Toy in
theorem exInfo_settled (m : Nat) : exInfo.Settled {} m where
  uri := by
    intro u hu
    have : exInfo.value (lit "WARC-Target-URI") = none := by decide
    rw [this] at hu; cases hu
  http := by
    refine .inl ⟨.inr (.inl ?_), rfl⟩
    rintro ⟨u, v, h, _⟩
    have : exInfo.value (lit "WARC-Target-URI") = none := by decide
    rw [this] at h; cases h

open Toy in
/-- The hypotheses of `C32_records`, `C33_positions`, `C33_seek`, `C35_independent`, `C36_blocks_partial` and
`C39_cut`, for lines of up to 17 bytes and for any short reads that start with at least 2 bytes. -/
example : Fit {} [exHttp, exInfo] ∧ exFile.rest = [exHttp, exInfo].flatMap WarcRecord.bytes ∧ Reads exFile 17 17 ∧
    Reads { exFile with caps := [2, 1, 1, 7] } 3 0 ∧ (∀ w ∈ [exHttp, exInfo], w.Settled {} 17) := by
  refine ⟨ex_fit, rfl, ⟨by decide, by simp [exFile], .inr ⟨rfl, by decide⟩⟩, ⟨by decide, by simp, .inl rfl⟩, ?_⟩
  intro w hw
  simp only [List.mem_cons, List.not_mem_nil, or_false] at hw
  rcases hw with rfl | rfl
  · exact exHttp_settled
  · exact exInfo_settled 17

open Toy in
/-- The hypotheses of the gzip versions. -/
example : (∀ x ∈ [(compress exHttp.bytes, exHttp), (compress exInfo.bytes, exInfo)], IsMember x.1 x.2.bytes) ∧
    exGz.rest = [(compress exHttp.bytes, exHttp), (compress exInfo.bytes, exInfo)].flatMap (·.1) ∧
    ReadsGz exGz 16384 17 [compress exHttp.bytes, compress exInfo.bytes] ∧ IsMember exOne.rest ([exHttp, exInfo].flatMap WarcRecord.bytes) := by
  refine ⟨?_, rfl, (.fit (by decide) rfl (by decide +kernel)), rfl⟩
  intro x hx
  simp only [List.mem_cons, List.not_mem_nil, or_false] at hx
  rcases hx with rfl | rfl <;> rfl

open Toy in
/-- Members longer than a block. -/
example : ReadsGz exGz 64 17 [compress exHttp.bytes, compress exInfo.bytes] ∧ ∀ z ∈ [compress exHttp.bytes, compress exInfo.bytes], 64 < z.length := by
  refine ⟨⟨by decide, .inr ⟨rfl, fun z hz => ?_⟩⟩, by decide +kernel⟩
  simp only [List.mem_cons, List.not_mem_nil, or_false] at hz
  rcases hz with rfl | rfl <;> exact toy_steady (by decide)

open Toy in
/-- What the model does: types, and positions. -/
example : (steps exFile {} 16384 [[.offset, .size], [.call (.read (some 3)), .size, .offset], []]).map (fun s => s.map (fun x => (x.1.map (·.recType), x.2))) =
    [.ok (some (some (lit "response")), [.ok (.int 0), .ok (.int 108)]),
     .ok (some (some (lit "metadata")), [.ok (.bytes [13, 10, 13]), .ok (.int 71), .ok (.int 112)]), .error .stopIteration] := by decide +kernel

open Toy in
/-- C36 fails for small blocks: the status line of the response is cut. -/
theorem C36_small_blocks :
    ∃ ws, Fit {} ws ∧ exFile.rest = ws.flatMap WarcRecord.bytes ∧
      (steps exFile {} 5 [[]]).map Step.record ≠ (steps exFile {} 16384 [[]]).map Step.record :=
  ⟨_, ex_fit, rfl, by decide +kernel⟩

open Toy in
/-- C36 fails for short reads, with the default block size. -/
theorem C36_short_reads :
    ∃ ws, Fit {} ws ∧ exFile.rest = ws.flatMap WarcRecord.bytes ∧
      (steps { exFile with caps := List.replicate 40 5 } {} 16384 [[]]).map Step.record ≠ (steps exFile {} 16384 [[]]).map Step.record :=
  ⟨_, ex_fit, rfl, by decide +kernel⟩

open Toy in
/-- C37 fails if another member follows in the same block: the second record of the first member
is yielded, at an offset at which there is nothing. -/
theorem C37_not_reported :
    ∃ ws, Fit {} ws ∧ IsMember exOne.content (ws.flatMap WarcRecord.bytes) ∧ exOne.content.length = 377 ∧
      (steps { content := exOne.content ++ exGz.content } {} 16384 [[], [.offset]]).map (fun s => s.map (fun x => x.2)) =
        [.ok [], .ok [.ok (.int 302)]] :=
  ⟨_, ex_fit, rfl, by decide +kernel, by decide +kernel⟩

open Toy in
/-- C38 for the example decompressor, and a file that is neither WARC nor ARC: reading it ends at
once. -/
example : (steps { content := utf8Encode (lit "what is this?\r\n\r\n") } {} 16384 [[.offset], [], []]) = [.error .unknownFormat, .error .stopIteration, .error .stopIteration] := by
  decide +kernel

open Toy in
/-- C38: two records, garbage behind the second. -/
example : (steps { exFile with content := exFile.content ++ utf8Encode (lit "junk\r\n") } {} 16384 [[.toEnd], [.offset], [], []]).map (fun s => s.map (fun x => x.2)) =
    [.ok [.ok .unit], .ok [.ok (.int 112)], .error .invalidWarc, .error .stopIteration] := by
  decide +kernel

end Warcio.Props
