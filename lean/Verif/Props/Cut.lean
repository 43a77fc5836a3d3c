import Verif.Props.Iterator
import Verif.Proofs.CutRecord
import Verif.Proofs.IterGzCut

/-!
# Property C74: the record in which a file ends

A file that was cut off in the block of its last record, or in the blank lines behind it; the same for a file in which each record is a gzip member, cut off somewhere in the last member.  Specification: `LawfulGzip.CutOff` in
`Verif/Spec/Codec.lean`; `WarcRecord.CutAt`, `WarcRecord.ShowsPart` and
`WarcRecord.JudgedPart` in `Verif/Spec/Archive.lean`.
-/

set_option linter.unusedSectionVars false

namespace Warcio.Props

open Warcio ArchiveIter BufReader Loader

section
variable [Zlib] [Hashlib] [PyUni] {IsMember : Bytes → Bytes → Prop}

theorem white_prefix {sep tail : Bytes} (hs : BlankLines sep) (h : tail <+: sep) : White tail := by
  intro b hb
  exact white_of_blankLines hs b (h.subset hb)

theorem lastWarned_placed (io : IterOpts) (m : Nat) : ∀ (ws : List WarcRecord) (off : Int), lastWarned [] (WarcRecord.placed io m off ws) = []
  | [], _ => rfl
  | w :: ws, off => by
    rw [WarcRecord.placed]
    exact lastWarned_placed io m ws _

theorem open_silent {f : FileObj} {io : IterOpts} {bs : Nat} {kf : Option Format} {it : ArchiveIter Source} (h : openArchive f io bs kf = .ok it) : it.warnings = [] := by
  unfold openArchive ArchiveIter.new at h
  split at h
  · cases h; rfl
  · cases h

/-- The archive is ready for the records before the cut and for the last one. -/
theorem cut_ready (L : LawfulGzip IsMember) {f : FileObj} {io : IterOpts} {ws : List WarcRecord} {w : WarcRecord} (hw : Fit io (ws ++ [w]))
    {part tail : Bytes} (hc : w.CutAt part tail)
    (he : part = [] → w.block = [] ∨ io.noRecordParse = true ∨ ¬ w.Http ∨ w.value (lit "WARC-Type") = some (lit "revisit"))
    (hf : f.rest = ws.flatMap WarcRecord.bytes ++ (w.head ++ (part ++ tail))) {bs m : Nat} (hr : Reads f bs m) {kf : Option Format} (hk : kf ≠ some .arc) :
    ∃ it, openArchive f io bs kf = .ok it ∧
      Ready false (some .stopIteration) it (WarcRecord.placed io m f.origin ws ++ [w.expectedPart part io m (f.origin + len (ws.flatMap WarcRecord.bytes)) (len w.head + len part)]) := by
  have hg : w.Good := hw.good w (by simp)
  have hpre : part <+: w.block := hc.elim (·.1) (fun h => h.1 ▸ List.prefix_refl _)
  have hwh : White tail := hc.elim (fun h => by rw [h.2]; intro b hb; cases hb) (fun h => white_prefix hg.sep h.2)
  have hi := hg.toWhole.cut hw.verify (hw.quiet w (by simp)) m hpre hwh (fun h => hc.elim (·.2) (fun h' => absurd h'.1 h)) he
  have hbytes : (w.cutItem part tail).bytes = w.head ++ (part ++ tail) := rfl
  have hfull : (w.cutItem part tail).bytes <+: w.bytes := by
    rw [hbytes]
    show _ <+: w.head ++ w.block ++ w.sep
    rw [List.append_assoc]
    refine (List.prefix_append_right_inj _).2 ?_
    rcases hc with ⟨h1, rfl⟩ | ⟨rfl, h1⟩
    · rw [List.append_nil]; exact h1.trans (List.prefix_append _ _)
    · exact (List.prefix_append_right_inj _).2 h1
  have hst : Starts (w.cutItem part tail).bytes := hg.starts_prefix hfull
  have hlay := WarcRecord.layout hw.verify m ws f.origin (fun x hx => hw.good x (by simp [hx])) (fun x hx => hw.quiet x (by simp [hx]))
  have hb := WarcRecord.bytesOf_items (w.cutItem part tail).bytes ws
  rw [← hbytes, ← hb] at hf
  have h2 : bytesOf (w.cutItem part tail).bytes (ws.map WarcRecord.item) ≠ [] → 2 ≤ (bytesOf (w.cutItem part tail).bytes (ws.map WarcRecord.item)).length := by
    intro _
    rw [hb]
    by_cases h0 : ws = []
    · subst h0
      have h1 := List.length_pos_of_mem hg.nl
      have h3 := hg.starts []
      rw [List.append_nil] at h3
      rw [hbytes]
      simp only [List.flatMap_nil, List.nil_append, List.length_append]
      have : w.head.length ≠ 1 := by
        intro h4
        obtain ⟨b, hb⟩ := List.length_eq_one_iff.1 h4
        have h5 := hg.nl
        rw [hb] at h5 h3
        have : b = 10 := (List.mem_singleton.1 h5).symm
        subst this
        exact startsWarc_text h3 (by decide)
      omega
    · exact two_le (fun x hx => hw.good x (by simp [hx])) h0 _
  have hm : ¬ [0x1f, 0x8b] <+: bytesOf (w.cutItem part tail).bytes (ws.map WarcRecord.item) := by
    rw [hb]
    by_cases h0 : ws = []
    · subst h0
      rw [hbytes]
      exact startsWarc_magic (hg.starts _)
    · exact no_magic (fun x hx => hw.good x (by simp [hx])) h0 _
  have hgo : ∀ {V : Source → Bytes → Prop}, ShortRead V → V (Source.of f) f.rest →
      (∀ T N, LineLaw (PlainAt V T N bs) m) → ∃ it, openArchive f io bs kf = .ok it ∧
      Ready false (some .stopIteration) it (WarcRecord.placed io m f.origin ws ++ [w.expectedPart part io m (f.origin + len (ws.flatMap WarcRecord.bytes)) (len w.head + len part)]) := by
    intro V hV v1 hX
    obtain ⟨it, k1, k2, k3⟩ := open_plain (m := m) (K := (· ≠ some .arc)) L v1 hr.block hr.first hk hlay hf h2 hm
    refine ⟨it, k1, _, _, (cut_machine L hV (hX _ _) (c := w.expectedPart part io m (f.origin + len (ws.flatMap WarcRecord.bytes)) (len w.head + len part)) hi hst ?_ ?_ rfl rfl).mono (fun _ h => h.1), ?_, _, _, next_start k2,
      .inl ⟨_, rfl, k3, ?_⟩⟩
    · rw [hb]
      simp only [len, List.length_append, WarcRecord.expectedPart]
      omega
    · simp only [len, WarcRecord.expectedPart, WarcRecord.cutItem, List.length_append]
      omega
    · intro l hl0
      cases hl0
      exact cut_stops L hV
    · rw [open_silent k1]; exact lastWarned_placed io m ws _
  rcases hr.lines with rfl | ⟨hc, hmb⟩
  · exact hgo Source.shortRead (Source.of_view f).1 (fun _ _ => lineLaw_zero)
  · exact hgo Source.fullShort (Source.of_full hc)
      (fun _ _ => lineLaw_mono (plainAt_lineLaw L Source.fullShort Source.fullRead) hmb)

/-! ## C74 -/

/-- C74: a file that ends in the block of its last record, or in the blank lines behind it, yields the records before it and then the last one, with what there is of its block; its digests
are not looked at unless the block is complete; and then the iteration stops as if nothing was missing.  The exception: nothing at all is left of a block that holds an HTTP message, see `C74_dropped`. -/
theorem C74_cut (L : LawfulGzip IsMember) {f : FileObj} {io : IterOpts} {ws : List WarcRecord} {w : WarcRecord} (hw : Fit io (ws ++ [w]))
    {part tail : Bytes} (hc : w.CutAt part tail)
    (he : part = [] → w.block = [] ∨ io.noRecordParse = true ∨ ¬ w.Http ∨ w.value (lit "WARC-Type") = some (lit "revisit"))
    (hf : f.rest = ws.flatMap WarcRecord.bytes ++ (w.head ++ (part ++ tail))) {bs m : Nat} (hr : Reads f bs m) {kf : Option Format} (hk : kf ≠ some .arc) :
    ∃ it, openArchive f io bs kf = .ok it ∧ ∀ plan, PlanOk plan →
      Yields .stopIteration (WarcRecord.placed io m f.origin ws ++ [w.expectedPart part io m (f.origin + len (ws.flatMap WarcRecord.bytes)) (len w.head + len part)]) plan (iterate it plan) := by
  obtain ⟨it, k1, k2⟩ := cut_ready L hw hc he hf hr hk
  exact ⟨it, k1, fun plan hp => k2.yields (.inr rfl) (fun ops h o ho => ⟨hp ops h o ho, fun h => by cases h⟩)⟩

/-- The archive is ready for the records before the one that is dropped. -/
theorem gone_ready (L : LawfulGzip IsMember) {f : FileObj} {io : IterOpts} {ws : List WarcRecord} {w : WarcRecord} (hw : Fit io (ws ++ [w]))
    (hp : io.noRecordParse = false) (hh : w.Http) (hr : w.value (lit "WARC-Type") ≠ some (lit "revisit")) (hb : w.block ≠ [])
    (hf : f.rest = ws.flatMap WarcRecord.bytes ++ w.head) {bs m : Nat} (hrd : Reads f bs m) {kf : Option Format} (hk : kf ≠ some .arc) :
    ∃ it, openArchive f io bs kf = .ok it ∧ Ready false (some .stopIteration) it (WarcRecord.placed io m f.origin ws) := by
  have hg : w.Good := hw.good w (by simp)
  have hne : w.head ≠ [] := by intro h0; have := hg.nl; rw [h0] at this; cases this
  have hst : Starts w.head := hg.starts_prefix (by show _ <+: w.head ++ w.block ++ w.sep; rw [List.append_assoc]; exact List.prefix_append _ _)
  have hlay := WarcRecord.layout hw.verify m ws f.origin (fun x hx => hw.good x (by simp [hx])) (fun x hx => hw.quiet x (by simp [hx]))
  have hbo := WarcRecord.bytesOf_items w.head ws
  rw [← hbo] at hf
  have h2 : bytesOf w.head (ws.map WarcRecord.item) ≠ [] → 2 ≤ (bytesOf w.head (ws.map WarcRecord.item)).length := by
    intro _
    rw [hbo]
    by_cases h0 : ws = []
    · subst h0
      have h1 := List.length_pos_of_mem hg.nl
      have h3 := hg.starts []
      rw [List.append_nil] at h3
      have : w.head.length ≠ 1 := by
        intro h4
        obtain ⟨b, hb⟩ := List.length_eq_one_iff.1 h4
        have h5 := hg.nl
        rw [hb] at h5 h3
        have : b = 10 := (List.mem_singleton.1 h5).symm
        subst this
        exact startsWarc_text h3 (by decide)
      simp only [List.flatMap_nil, List.nil_append]
      omega
    · exact two_le (fun x hx => hw.good x (by simp [hx])) h0 _
  have hm : ¬ [0x1f, 0x8b] <+: bytesOf w.head (ws.map WarcRecord.item) := by
    rw [hbo]
    by_cases h0 : ws = []
    · subst h0
      have := startsWarc_magic (hg.starts [])
      rw [List.append_nil] at this
      exact this
    · exact no_magic (fun x hx => hw.good x (by simp [hx])) h0 _
  have hgo : ∀ {V : Source → Bytes → Prop}, ShortRead V → V (Source.of f) f.rest →
      (∀ T N, LineLaw (PlainAt V T N bs) m) → ∃ it, openArchive f io bs kf = .ok it ∧
      Ready false (some .stopIteration) it (WarcRecord.placed io m f.origin ws) := by
    intro V hV v1 hX
    obtain ⟨it, k1, k2, k3⟩ := open_plain (m := m) (K := (· ≠ some .arc)) L v1 hrd.block hrd.first hk hlay hf h2 hm
    refine ⟨it, k1, _, _, (plain_machine L hV hst (hX _ _)).mono (fun _ h => h.1), ?_, _, _, next_start k2, k3⟩
    intro l hl0
    cases hl0
    refine gone_stops L hV hne ?_
    intro kf' id hk' s st hs
    obtain ⟨hd, g1, g2, g3, hhttp, g5, g6, hhd, hval⟩ := hg.toWhole.found (hw.quiet w (by simp)) hk' id []
    rw [List.append_nil] at g1
    obtain ⟨f1, f2, f3, f4, f5, f6, f7⟩ := fields_warc hd
    exact load_gone (plainAt_exact L hV) g1 g2 (by have := List.length_pos_iff.2 hb; simp only [len]; omega) hp (hhttp.2 hh) (by rw [f2, ← hval]; exact hr) g5 hw.verify hs
  rcases hrd.lines with rfl | ⟨hc, hmb⟩
  · exact hgo Source.shortRead (Source.of_view f).1 (fun _ _ => lineLaw_zero)
  · exact hgo Source.fullShort (Source.of_full hc)
      (fun _ _ => lineLaw_mono (plainAt_lineLaw L Source.fullShort Source.fullRead) hmb)

/-- C74: a file that ends right behind the header block of a record whose block should be an HTTP message yields the records before it, and then the iteration stops: the last record is dropped without a word. -/
theorem C74_dropped (L : LawfulGzip IsMember) {f : FileObj} {io : IterOpts} {ws : List WarcRecord} {w : WarcRecord} (hw : Fit io (ws ++ [w]))
    (hp : io.noRecordParse = false) (hh : w.Http) (hr : w.value (lit "WARC-Type") ≠ some (lit "revisit")) (hb : w.block ≠ [])
    (hf : f.rest = ws.flatMap WarcRecord.bytes ++ w.head) {bs m : Nat} (hrd : Reads f bs m) {kf : Option Format} (hk : kf ≠ some .arc) :
    ∃ it, openArchive f io bs kf = .ok it ∧ ∀ plan, PlanOk plan → Yields .stopIteration (WarcRecord.placed io m f.origin ws) plan (iterate it plan) := by
  obtain ⟨it, k1, k2⟩ := gone_ready L hw hp hh hr hb hf hrd hk
  exact ⟨it, k1, fun plan hp => k2.yields (.inr rfl) (fun ops h o ho => ⟨hp ops h o ho, fun h => by cases h⟩)⟩

/-! ### Compressed files -/

/-- Opening a file of members, with what there is of another one at the end. -/
theorem open_members (L : LawfulGzip IsMember) {f : FileObj} {io : IterOpts} {ms : List (Bytes × WarcRecord)} (hw : Fit io (ms.map (·.2)))
    (hz : ∀ x ∈ ms, IsMember x.1 x.2.bytes) {p : Bytes} (hp : p ≠ []) (hf : f.rest = ms.flatMap (·.1) ++ p) {bs m : Nat} (hb : 0 < bs) {kf : Option Format} (hk : kf ≠ some .arc)
    {V : Source → Bytes → Prop} {Q : Bytes → Prop} (v1 : V (Source.of f) f.rest) (hQ : ∀ x ∈ ms, Q x.1) :
    ∃ it, openArchive f io bs kf = .ok it ∧ it.gen = .start ∧
      GzTop L V (f.origin + len f.rest) bs Q false io m (· ≠ some .arc) p it (WarcRecord.placedGz io m f.origin ms) := by
  cases ms with
  | nil =>
    rw [List.flatMap_nil, List.nil_append] at hf
    subst hf
    exact open_gz_part (K := (· ≠ some .arc)) L v1 hb hk hp
  | cons x ms =>
    obtain ⟨z, w⟩ := x
    have hg : ∀ x ∈ (z, w) :: ms, x.2.Good := fun x hx => hw.good _ (List.mem_map.2 ⟨x, hx, rfl⟩)
    have hq : ∀ x ∈ (z, w) :: ms, Quiet { checkDigests := io.checkDigests } x.2.headers := fun x hx => hw.quiet _ (List.mem_map.2 ⟨x, hx, rfl⟩)
    have hlay := WarcRecord.layoutGz (IsMember := IsMember) (Q := Q) hw.verify m ms (f.origin + len z)
      (fun x hx => ⟨hz x (by simp [hx]), hQ x (by simp [hx])⟩) (fun x hx => hg x (by simp [hx])) (fun x hx => hq x (by simp [hx]))
    exact open_gz (m := m) (K := (· ≠ some .arc)) (tl := p) (multi := false) (more := []) (i := w.item)
      (e := w.expected io m f.origin (len z)) L v1 hb hk
      (by rw [WarcRecord.item_bytes, List.append_nil]; exact hz (z, w) (by simp)) (hQ (z, w) (by simp))
      ⟨(hg (z, w) (by simp)).sep, rfl, rfl, (hg (z, w) (by simp)).item hw.verify (hq (z, w) (by simp)) m⟩ rfl (fun _ => rfl) rfl (.inl ⟨rfl, rfl⟩) hlay
      (by rw [WarcRecord.zipped_items, hf, List.flatMap_cons, List.append_assoc])

/-- The archive is ready for the complete members and for the last one. -/
theorem cutGz_ready (L : LawfulGzip IsMember) {f : FileObj} {io : IterOpts} {ms : List (Bytes × WarcRecord)} {w : WarcRecord} (hw : Fit io (ms.map (·.2) ++ [w]))
    (hz : ∀ x ∈ ms, IsMember x.1 x.2.bytes) {part tail p : Bytes} (hc : w.CutAt part tail)
    (he : part = [] → w.block = [] ∨ io.noRecordParse = true ∨ ¬ w.Http ∨ w.value (lit "WARC-Type") = some (lit "revisit"))
    (hp : L.CutOff p (w.head ++ (part ++ tail))) (hf : f.rest = ms.flatMap (·.1) ++ p) {bs m : Nat} (hr : ReadsGz f bs m (ms.map (·.1) ++ [p])) {kf : Option Format} (hk : kf ≠ some .arc) :
    ∃ it, openArchive f io bs kf = .ok it ∧
      Ready false (some .stopIteration) it (WarcRecord.placedGz io m f.origin ms ++ [w.expectedPart part io m (f.origin + len (ms.flatMap (·.1))) (len p)]) := by
  have hg : w.Good := hw.good w (by simp)
  have hpre : part <+: w.block := hc.elim (·.1) (fun h => h.1 ▸ List.prefix_refl _)
  have hwh : White tail := hc.elim (fun h => by rw [h.2]; intro b hb; cases hb) (fun h => white_prefix hg.sep h.2)
  have hi := hg.toWhole.cut hw.verify (hw.quiet w (by simp)) m hpre hwh (fun h => hc.elim (·.2) (fun h' => absurd h'.1 h)) he
  have hfit : Fit io (ms.map (·.2)) := ⟨fun x hx => hw.good x (by simp [hx]), fun x hx => hw.quiet x (by simp [hx]), hw.verify⟩
  have hgo : ∀ {V : Source → Bytes → Prop} {Q : Bytes → Prop}, ShortRead V → V (Source.of f) f.rest → (∀ x ∈ ms, Q x.1) → Q p →
      (∀ T rest, LineLaw (GzAt L V T bs Q rest) m) → ∃ it, openArchive f io bs kf = .ok it ∧
      Ready false (some .stopIteration) it (WarcRecord.placedGz io m f.origin ms ++ [w.expectedPart part io m (f.origin + len (ms.flatMap (·.1))) (len p)]) := by
    intro V Q hV v1 hQ hQp hX
    obtain ⟨it, k1, k2, k3⟩ := open_members (m := m) L hfit hz hp.some hf hr.block hk v1 hQ
    refine ⟨it, k1, _, _, gzCut_machine hV (hX _) (c := w.expectedPart part io m (f.origin + len (ms.flatMap (·.1))) (len p)) hi (p := p) hp.holds hQp hp.some ?_ rfl rfl ⟨rfl, rfl⟩, ?_, _, _, next_start k2,
      .inl ⟨_, rfl, k3⟩⟩
    · show f.origin + _ = _
      rw [hf]
      simp only [len, List.length_append]
      omega
    · intro l hl0
      cases hl0
      exact gzCut_stops hV
  rcases hr.lines with rfl | ⟨hc, hmb⟩
  · exact hgo (Q := fun _ => True) Source.shortRead (Source.of_view f).1 (fun _ _ => trivial) trivial (fun _ _ => lineLaw_zero)
  · exact hgo (Q := Steady bs m) Source.fullShort (Source.of_full hc) (fun x hx => hmb _ (List.mem_append_left _ (List.mem_map.2 ⟨x, hx, rfl⟩))) (hmb _ (by simp))
      (fun _ rest => gzAt_lineLaw L Source.fullShort Source.fullRead (fun _ h => h) rest)

/-- C74: the same for a file in which each record is a gzip member, if it ends in the last member: the record in it is yielded with what could be decompressed of its block, its size is what there is of the
member, and the iteration stops as if nothing was missing. -/
theorem C74_cut_gzip (L : LawfulGzip IsMember) {f : FileObj} {io : IterOpts} {ms : List (Bytes × WarcRecord)} {w : WarcRecord} (hw : Fit io (ms.map (·.2) ++ [w]))
    (hz : ∀ x ∈ ms, IsMember x.1 x.2.bytes) {part tail p : Bytes} (hc : w.CutAt part tail)
    (he : part = [] → w.block = [] ∨ io.noRecordParse = true ∨ ¬ w.Http ∨ w.value (lit "WARC-Type") = some (lit "revisit"))
    (hp : L.CutOff p (w.head ++ (part ++ tail))) (hf : f.rest = ms.flatMap (·.1) ++ p) {bs m : Nat} (hr : ReadsGz f bs m (ms.map (·.1) ++ [p])) {kf : Option Format} (hk : kf ≠ some .arc) :
    ∃ it, openArchive f io bs kf = .ok it ∧ ∀ plan, PlanOk plan →
      Yields .stopIteration (WarcRecord.placedGz io m f.origin ms ++ [w.expectedPart part io m (f.origin + len (ms.flatMap (·.1))) (len p)]) plan (iterate it plan) := by
  obtain ⟨it, k1, k2⟩ := cutGz_ready L hw hz hc he hp hf hr hk
  exact ⟨it, k1, fun plan hp => k2.yields (.inr rfl) (fun ops h o ho => ⟨hp ops h o ho, fun h => by cases h⟩)⟩

/-- The archive is ready for the complete members; the record in the last one is dropped. -/
theorem goneGz_ready (L : LawfulGzip IsMember) {f : FileObj} {io : IterOpts} {ms : List (Bytes × WarcRecord)} {w : WarcRecord} (hw : Fit io (ms.map (·.2) ++ [w]))
    (hz : ∀ x ∈ ms, IsMember x.1 x.2.bytes) {d p : Bytes}
    (hd : d = [] ∨ (d = w.head ∧ io.noRecordParse = false ∧ w.Http ∧ w.value (lit "WARC-Type") ≠ some (lit "revisit") ∧ w.block ≠ []))
    (hp : L.CutOff p d) (hf : f.rest = ms.flatMap (·.1) ++ p) {bs m : Nat} (hr : ReadsGz f bs m (ms.map (·.1) ++ [p])) {kf : Option Format} (hk : kf ≠ some .arc) :
    ∃ it, openArchive f io bs kf = .ok it ∧ Ready false (some .stopIteration) it (WarcRecord.placedGz io m f.origin ms) := by
  have hg : w.Good := hw.good w (by simp)
  have hfit : Fit io (ms.map (·.2)) := ⟨fun x hx => hw.good x (by simp [hx]), fun x hx => hw.quiet x (by simp [hx]), hw.verify⟩
  have hgo : ∀ {V : Source → Bytes → Prop} {Q : Bytes → Prop}, ShortRead V → V (Source.of f) f.rest → (∀ x ∈ ms, Q x.1) → Q p →
      (∀ T rest, LineLaw (GzAt L V T bs Q rest) m) → ∃ it, openArchive f io bs kf = .ok it ∧
      Ready false (some .stopIteration) it (WarcRecord.placedGz io m f.origin ms) := by
    intro V Q hV v1 hQ hQp hX
    obtain ⟨it, k1, k2, k3⟩ := open_members (m := m) L hfit hz hp.some hf hr.block hk v1 hQ
    refine ⟨it, k1, _, _, gz_machine (multi := false) L hV (hX _), ?_, _, _, next_start k2, k3⟩
    intro l hl0
    cases hl0
    refine gzGone_stops hp.some hp.holds hQp ?_
    intro kf' id hk' s hs
    rcases hd with rfl | ⟨rfl, hnp, hh, hrv, hb⟩
    · obtain ⟨s1, k1, k2⟩ := detect_at (gzAt_exact L hV []).lineRead (io.load kf' id) (st := none) (.inl ⟨rfl, hs⟩)
      rw [detect_eof] at k1 k2
      exact ⟨s1, load_error k1, k2⟩
    · obtain ⟨hd, g1, g2, g3, hhttp, g5, g6, hhd, hval⟩ := hg.toWhole.found (hw.quiet w (by simp)) hk' id []
      rw [List.append_nil] at g1
      obtain ⟨f1, f2, f3, f4, f5, f6, f7⟩ := fields_warc hd
      exact load_gone (gzAt_exact L hV []) g1 g2 (by have := List.length_pos_iff.2 hb; simp only [len]; omega) hnp (hhttp.2 hh) (by rw [f2, ← hval]; exact hrv) g5 hw.verify (st := none) (.inl ⟨rfl, hs⟩)
  rcases hr.lines with rfl | ⟨hc, hmb⟩
  · exact hgo (Q := fun _ => True) Source.shortRead (Source.of_view f).1 (fun _ _ => trivial) trivial (fun _ _ => lineLaw_zero)
  · exact hgo (Q := Steady bs m) Source.fullShort (Source.of_full hc) (fun x hx => hmb _ (List.mem_append_left _ (List.mem_map.2 ⟨x, hx, rfl⟩))) (hmb _ (by simp))
      (fun _ rest => gzAt_lineLaw L Source.fullShort Source.fullRead (fun _ h => h) rest)

/-- C74: if nothing could be decompressed of the last member, or just the header block of a record whose block should be an HTTP message, the records before it are yielded, and then the iteration stops: the last
record is dropped without a word. -/
theorem C74_dropped_gzip (L : LawfulGzip IsMember) {f : FileObj} {io : IterOpts} {ms : List (Bytes × WarcRecord)} {w : WarcRecord} (hw : Fit io (ms.map (·.2) ++ [w]))
    (hz : ∀ x ∈ ms, IsMember x.1 x.2.bytes) {d p : Bytes}
    (hd : d = [] ∨ (d = w.head ∧ io.noRecordParse = false ∧ w.Http ∧ w.value (lit "WARC-Type") ≠ some (lit "revisit") ∧ w.block ≠ []))
    (hp : L.CutOff p d) (hf : f.rest = ms.flatMap (·.1) ++ p) {bs m : Nat} (hr : ReadsGz f bs m (ms.map (·.1) ++ [p])) {kf : Option Format} (hk : kf ≠ some .arc) :
    ∃ it, openArchive f io bs kf = .ok it ∧ ∀ plan, PlanOk plan → Yields .stopIteration (WarcRecord.placedGz io m f.origin ms) plan (iterate it plan) := by
  obtain ⟨it, k1, k2⟩ := goneGz_ready L hw hz hd hp hf hr hk
  exact ⟨it, k1, fun plan hp => k2.yields (.inr rfl) (fun ops h o ho => ⟨hp ops h o ho, fun h => by cases h⟩)⟩

end
end Warcio.Props

namespace Warcio.Props

open Warcio ArchiveIter

section
open Toy

/-- The two records, cut off in the block of the second, which comes with three of its bytes. -/
def exCut : FileObj := { content := exHttp.bytes ++ (exInfo.head ++ (exInfo.block.take 3 ++ [])) }

/-- C74 says something of it. -/
example : Fit {} ([exHttp] ++ [exInfo]) ∧ exInfo.CutAt (exInfo.block.take 3) [] ∧ exInfo.block.take 3 ≠ [] ∧
    exCut.rest = [exHttp].flatMap WarcRecord.bytes ++ (exInfo.head ++ (exInfo.block.take 3 ++ [])) ∧ Reads exCut 16384 16384 :=
  ⟨ex_fit, .inl ⟨List.take_prefix _ _, rfl⟩, by decide +kernel, by rw [List.flatMap_singleton]; rfl, ⟨by decide, by simp [exCut], .inr ⟨rfl, by decide⟩⟩⟩

/-- What the model does. -/
example : (steps exCut {} 16384 [[.offset, .size], [.call (.read none), .size, .offset], []]).map (fun s => s.map (fun x => (x.1.map (·.length), x.2))) =
    [.ok (some (some 27), [.ok (.int 0), .ok (.int 108)]),
     .ok (some (some 18), [.ok (.bytes [13, 10, 13]), .ok (.int 56), .ok (.int 112)]), .error .stopIteration] := by decide +kernel

/-- The two records the other way round, and nothing of the block of the response: C74_dropped says something of it. -/
def exGone : FileObj := { content := exInfo.bytes ++ exHttp.head }

example : Fit {} ([exInfo] ++ [exHttp]) ∧ exHttp.Http ∧ exHttp.value (lit "WARC-Type") ≠ some (lit "revisit") ∧ exHttp.block ≠ [] ∧
    exGone.rest = [exInfo].flatMap WarcRecord.bytes ++ exHttp.head ∧ Reads exGone 16384 16384 := by
  refine ⟨⟨fun w hw => ex_fit.good w ?_, fun _ _ => .inl rfl, rfl⟩, exHttp_http, by decide, by decide +kernel, by rw [List.flatMap_singleton]; rfl, ⟨by decide, by simp [exGone], .inr ⟨rfl, by decide⟩⟩⟩
  simp only [List.cons_append, List.nil_append, List.mem_cons, List.not_mem_nil, or_false] at hw ⊢
  exact hw.symm

example : (steps exGone {} 16384 [[.offset, .size], [.offset]]).map (fun s => s.map (fun x => (x.1.map (·.length), x.2))) =
    [.ok (some (some 18), [.ok (.int 0), .ok (.int 71)]), .error .stopIteration] := by decide +kernel

/-- The two records in a member each; of the second member there is as much as makes three bytes of the block. -/
def exCutGz : FileObj := { content := compress exHttp.bytes ++ (compress exInfo.bytes).take 114 }

theorem ex_cutOff (n : Nat) (h : 0 < n) (w : WarcRecord) : lawful.CutOff ((compress w.bytes).take n) (go .h0 ((compress w.bytes).take n)).2 :=
  cutOff (List.take_prefix _ _) (by obtain ⟨n, rfl⟩ : ∃ k, n = k + 1 := ⟨n - 1, by omega⟩; rw [compress]; exact List.cons_ne_nil _ _)

/-- C74_cut_gzip says something of it. -/
example : Fit {} ([(compress exHttp.bytes, exHttp)].map (·.2) ++ [exInfo]) ∧ (∀ x ∈ [(compress exHttp.bytes, exHttp)], IsMember x.1 x.2.bytes) ∧ exInfo.CutAt (exInfo.block.take 3) [] ∧ exInfo.block.take 3 ≠ [] ∧
    lawful.CutOff ((compress exInfo.bytes).take 114) (exInfo.head ++ (exInfo.block.take 3 ++ [])) ∧
    exCutGz.rest = [(compress exHttp.bytes, exHttp)].flatMap (·.1) ++ (compress exInfo.bytes).take 114 ∧
    ReadsGz exCutGz 16384 16384 ([(compress exHttp.bytes, exHttp)].map (·.1) ++ [(compress exInfo.bytes).take 114]) := by
  refine ⟨ex_fit, fun x hx => by rw [List.mem_singleton.1 hx]; rfl, .inl ⟨List.take_prefix _ _, rfl⟩, by decide +kernel, ?_, by rw [List.flatMap_singleton]; rfl, ⟨by decide, .inr ⟨rfl, ?_⟩⟩⟩
  · have e : (go .h0 ((compress exInfo.bytes).take 114)).2 = exInfo.head ++ (exInfo.block.take 3 ++ []) := by decide +kernel
    rw [← e]
    exact ex_cutOff 114 (by decide) exInfo
  · intro z hz
    simp only [List.map_cons, List.map_nil, List.cons_append, List.nil_append, List.mem_cons, List.not_mem_nil, or_false] at hz
    rcases hz with rfl | rfl <;> exact steady_of_le (by decide +kernel)

/-- What the model does. -/
example : (steps exCutGz {} 16384 [[.offset, .size], [.call (.read none), .size, .offset], []]).map (fun s => s.map (fun x => (x.1.map (·.length), x.2))) =
    [.ok (some (some 27), [.ok (.int 0), .ok (.int 227)]),
     .ok (some (some 18), [.ok (.bytes [13, 10, 13]), .ok (.int 114), .ok (.int 227)]), .error .stopIteration] := by decide +kernel

/-- Two bytes of the second member, from which nothing comes out: C74_dropped_gzip says something of it. -/
def exGoneGz : FileObj := { content := compress exHttp.bytes ++ (compress exInfo.bytes).take 2 }

example : Fit {} ([(compress exHttp.bytes, exHttp)].map (·.2) ++ [exInfo]) ∧ lawful.CutOff ((compress exInfo.bytes).take 2) [] ∧
    exGoneGz.rest = [(compress exHttp.bytes, exHttp)].flatMap (·.1) ++ (compress exInfo.bytes).take 2 ∧
    ReadsGz exGoneGz 16384 16384 ([(compress exHttp.bytes, exHttp)].map (·.1) ++ [(compress exInfo.bytes).take 2]) := by
  refine ⟨ex_fit, ex_cutOff 2 (by decide) exInfo, by rw [List.flatMap_singleton]; rfl, ⟨by decide, .inr ⟨rfl, ?_⟩⟩⟩
  intro z hz
  simp only [List.map_cons, List.map_nil, List.cons_append, List.nil_append, List.mem_cons, List.not_mem_nil, or_false] at hz
  rcases hz with rfl | rfl <;> exact steady_of_le (by decide +kernel)

example : (steps exGoneGz {} 16384 [[.offset, .size], []]).map (fun s => s.map (fun x => (x.1.map (·.length), x.2))) =
    [.ok (some (some 27), [.ok (.int 0), .ok (.int 227)]), .error .stopIteration] := by decide +kernel

set_option synthInstance.maxSize 1024 in
/-- C74 does not extend to a file that ends in a header block: what there is of the headers makes a record, here with another length and no complaint. -/
theorem C74_header_block :
    ∃ w : WarcRecord, Fit {} [w] ∧ w.value (lit "Content-Length") = some (lit "18") ∧
      (steps { content := w.head.take 48 } {} 16384 [[.call (.read none), .offset, .size], []]).map (fun s => s.map (fun x => (x.1.map (fun r => (r.recType, r.length)), x.2))) =
        [.ok (some (some (lit "metadata"), some 1), [.ok (.bytes []), .ok (.int 0), .ok (.int 48)]), .error .stopIteration] :=
  ⟨exInfo, ⟨fun w hw => ex_fit.good w (by simp at hw; simp [hw]), fun _ _ => .inl rfl, rfl⟩, by decide, by decide +kernel⟩

end
end Warcio.Props
