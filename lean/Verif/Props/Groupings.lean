import Verif.Proofs.Loose
import Verif.Props.Runs

/-!
# Properties C37 and C60, any grouping: a file whose gzip members do not hold one record each is reported, and `warcio recompress` loses none of its records

Specification: `Copied` in `Verif/Props/Recompress.lean`, `NoRun` in `Verif/Spec/Runs.lean`.
-/

set_option linter.unusedSectionVars false

namespace Warcio.Props

open Warcio ArchiveIter BufReader Recompressor

section
variable [Zlib] [Hashlib] [PyUni] [Deflater] {IsMember : Bytes → Bytes → Prop}

omit [PyUni] [Deflater] in
theorem open_ratio {f : FileObj} {io : IterOpts} {bs : Nat} {kf : Option Format} {it : ArchiveIter Source} (h : openArchive f io bs kf = .ok it) :
    (Zlib.ratio + 1) * f.rest.length ≤ PyStream.bound it.reader := by
  unfold openArchive ArchiveIter.new at h
  cases hr : BufReader.new (Source.of f) bs (some .gzip) with
  | error e => rw [hr] at h; cases h
  | ok r =>
    rw [hr] at h
    cases h
    have hs : r.stream = Source.of f := by
      unfold BufReader.new at hr
      simp only at hr
      split at hr
      · cases hr; rfl
      · cases hr
    have hb : f.rest.length ≤ PyStream.bound (Source.of f) := by
      unfold Source.of
      split <;> exact Nat.le_refl _
    show _ ≤ BufReader.bound r
    unfold BufReader.bound
    rw [hs]
    exact Nat.le_trans (Nat.mul_le_mul_left _ (Nat.le_trans hb (Nat.le_add_left _ _))) (Nat.le_add_left _ _)

omit [PyUni] [Deflater] in
theorem open_no_record {f : FileObj} {io : IterOpts} {bs : Nat} {kf : Option Format} {it : ArchiveIter Source} (h : openArchive f io bs kf = .ok it) : it.record = none := by
  unfold openArchive ArchiveIter.new at h
  cases hr : BufReader.new (Source.of f) bs (some .gzip) with
  | error e => rw [hr] at h; cases h
  | ok r =>
    rw [hr] at h
    cases h
    rfl

/-- C60: the first attempt of `recompress` on gzip members that hold one or more proper records each: it copies all of them if each member holds one, otherwise it fails. -/
theorem C60_first {IsOut : Bytes → Bytes → Prop} (L : LawfulGzip IsMember) (D : LawfulDeflater IsOut) {sha : Bytes → Bytes} (H : Hashlib.hash (lit "sha1") = some sha) {f : FileObj}
    {ms : List (Bytes × List (WarcRecord × Bytes))} (hne : ms ≠ []) (hz : ∀ x ∈ ms, IsMember x.1 (x.2.flatMap (·.1.bytes)) ∧ x.2 ≠ []) (hf : f.rest = ms.flatMap (·.1))
    {m : Nat} (hw : ∀ x ∈ ms.flatMap (·.2), x.1.Rewritable m x.2) (hr : ReadsGz f 16384 m (ms.map (·.1)))
    {c : BuilderCfg} (hc : c.filter = some) (ids : Nat → Str) :
    ((∃ x ∈ ms, x.2.length ≠ 1) ∧ ∃ out', loadAndWrite c ids f = (.error .nonChunkedGzip, out')) ∨
    ∃ out, (∀ x ∈ ms, x.2.length = 1) ∧ Copied IsOut sha c.gzip (ms.flatMap (·.2)) out ∧ loadAndWrite c ids f = (.ok (ms.flatMap (·.2)).length, ({} : OutFile).extended (out.flatMap (·.1))) := by
  have hl : m = 0 ∨ (f.caps = [] ∧ ∀ x ∈ ms, Steady 16384 m x.1) := hr.lines.imp id (fun h => ⟨h.1, fun x hx => h.2 x.1 (List.mem_map_of_mem hx)⟩)
  clear hr
  match ms, hne with
  | (z, here) :: ms, _ =>
    have hfine : ∀ x ∈ ((z, here) :: ms).flatMap (·.2), Fine (opts ids) m x ∧ x.1.Shaped m x.2 := by
      intro x hx
      have hfit := opts_fit (ids := ids) hw
      have hx' : x.1 ∈ (((z, here) :: ms).flatMap (·.2)).map (·.1) := List.mem_map_of_mem hx
      exact ⟨⟨(hfit.good _ hx').item hfit.verify (hfit.quiet _ hx') m, (hw x hx).good.sep⟩, (hw x hx).shaped⟩
    have hhere := (hz (z, here) (by simp)).2
    obtain ⟨V, Q, it, v1, v2, v3, v4, v5⟩ := open_gz_any L (f := f) (bs := 16384) (m := m) (by omega) (z := z) (data := flatR here) (ms := ms.map (fun x => (x.1, flatR x.2)))
      (hl.imp id (fun h => ⟨h.1, fun x hx => by
        rcases List.mem_cons.1 hx with rfl | hx
        · exact h.2 (z, here) (by simp)
        · obtain ⟨y, hy, rfl⟩ := List.mem_map.1 hx
          exact h.2 y (by simp [hy])⟩))
      (fun x hx => by
        rcases List.mem_cons.1 hx with rfl | hx
        · exact (hz (z, here) (by simp)).1
        · obtain ⟨y, hy, rfl⟩ := List.mem_map.1 hx
          exact (hz y (by simp [hy])).1)
      (by rw [hf]; simp [List.flatMap_map]) (opts ids) none
    have hmem : membersOf (ms.map (fun x => (x.1, flatR x.2))) = ms.flatMap (·.1) := by simp [membersOf, List.flatMap_map]
    have htop : LTop L V (f.origin + len f.rest) 16384 Q (opts ids) false here ms it := by
      refine ⟨⟨v5.opts, by rw [v5.known]; simp, v5.closed, v5.calm, v5.more, by simpa using v5.quiet, fun h => by cases h⟩, .inl ⟨v5.line, .inl ?_⟩⟩
      rw [← hmem]
      exact v5.view
    have hb := open_ratio v3
    have hlen : (((z, here) :: ms).flatMap (·.2)).length < PyStream.bound it.reader + 2 := by
      have h1 : ∀ {ms : List (Bytes × List (WarcRecord × Bytes))}, (∀ x ∈ ms, IsMember x.1 (x.2.flatMap (·.1.bytes))) → (∀ x ∈ ms.flatMap (·.2), x.1.Rewritable m x.2) →
          (ms.flatMap (·.2)).length ≤ Zlib.ratio * (ms.flatMap (·.1)).length := by
        intro ms hz hw
        induction ms with
        | nil => simp
        | cons y ms ih =>
          have i1 := ih (fun x hx => hz x (by simp [hx])) (fun x hx => hw x (by simp only [List.flatMap_cons, List.mem_append]; exact .inr hx))
          have i2 := L.ratio (hz y (by simp))
          have i3 := length_le_flatMap (fun x : WarcRecord × Bytes => x.1.bytes) y.2 (fun x hx h0 => by
            have := (hw x (by simp only [List.flatMap_cons, List.mem_append]; exact .inl hx)).good.two
            rw [h0] at this
            simp at this)
          simp only [List.flatMap_cons, List.length_append, Nat.mul_add]
          omega
      have h2 := h1 (fun x hx => (hz x hx).1) hw
      rw [← hf] at h2
      rw [Nat.add_mul] at hb
      omega
    rcases copyLoop_loose D H hc (io := opts ids) rfl rfl v1 v2 _ hfine (by simp [hhere]) here ms rfl hhere
      (fun y hy => ⟨(hz y (by simp [hy])).1, (v5.mem (y.1, flatR y.2) (List.mem_map.2 ⟨y, hy, rfl⟩)).2, (hz y (by simp [hy])).2⟩) _ it it false _ {} 0 (next_start v4) htop hlen rfl with ⟨o0, out', o1⟩ | ⟨out, o0, o1, o2⟩
    · refine .inl ⟨?_, out', by unfold loadAndWrite; rw [v3]; exact o1⟩
      refine Classical.byContradiction (fun h => ?_)
      rcases o0 with o0 | o0
      · cases o0
      · refine o0 ⟨?_, fun y hy => ?_⟩
        · exact Classical.byContradiction (fun h1 => h ⟨(z, here), by simp, h1⟩)
        · exact Classical.byContradiction (fun h1 => h ⟨y, by simp [hy], h1⟩)
    · refine .inr ⟨out, fun y hy => ?_, o1, ?_⟩
      · rcases List.mem_cons.1 hy with rfl | hy
        · exact o0.2.1
        · exact o0.2.2 y hy
      unfold loadAndWrite
      rw [v3]
      dsimp only
      rw [o2, Nat.zero_add]

/-- C60 for files of gzip members that hold one or more proper records each: all records are in the output, rewritten, and counted.  There are no errors if each member holds one record, otherwise they are fixed.
Partial: no run of members may hold a multiple of 65536 bytes (`NoRun`; see `C100_run`); with members that hold no record at all this is false (`C60_lost`). -/
theorem C60_groups_partial {IsOut : Bytes → Bytes → Prop} (L : LawfulGzip IsMember) (D : LawfulDeflater IsOut) {sha : Bytes → Bytes} (H : Hashlib.hash (lit "sha1") = some sha) {f : FileObj} (hp : f.pos = 0) (hs : f.seekable = true)
    {ms : List (Bytes × List (WarcRecord × Bytes))} (hne : ms ≠ []) (hz : ∀ x ∈ ms, IsMember x.1 (x.2.flatMap (·.1.bytes)) ∧ x.2 ≠ []) (hf : f.rest = ms.flatMap (·.1))
    (hN : NoRun 65536 (ms.map (fun x => x.2.flatMap (·.1.bytes)))) {m : Nat} (hm : m ≤ 16384) (hw : ∀ x ∈ ms.flatMap (·.2), x.1.Rewritable m x.2) (hr : ReadsGz f 16384 m (ms.map (·.1)))
    {c : BuilderCfg} (hc : c.filter = some) (ids : Nat → Str) (again : List Nat) :
    ∃ out, Copied IsOut sha c.gzip (ms.flatMap (·.2)) out ∧
      recompress c ids f again = (if ∀ x ∈ ms, x.2.length = 1 then .noErrors (ms.flatMap (·.2)).length else .fixed (ms.flatMap (·.2)).length, ({} : OutFile).extended (out.flatMap (·.1))) := by
  rcases C60_first L D H hne hz hf hw hr hc ids with ⟨⟨y, y1, y2⟩, out', o1⟩ | ⟨out, o0, o1, o2⟩
  · rcases C100_records L D H hp hs (ms := ms.map (fun x => (x.1, x.2.flatMap (·.1.bytes)))) (by simpa using hne)
      (fun x hx => by obtain ⟨y, hy, rfl⟩ := List.mem_map.1 hx; exact (hz y hy).1) (by rw [hf]; simp [List.flatMap_map]) (by simpa [Function.comp_def] using hN) hm hw
      (by simp [List.flatMap_map, List.flatMap_assoc]) hc ids again with ⟨n, h1⟩ | ⟨out, h1, h2⟩
    · exfalso
      unfold recompress at h1
      rw [o1] at h1
      dsimp only at h1
      split at h1 <;> cases h1
    · exact ⟨out, h1, by rw [if_neg (fun h => y2 (h y y1)), h2]⟩
  · exact ⟨out, o1, by rw [if_pos o0]; unfold recompress; rw [o2]⟩

/-- C37 for any grouping of proper records into gzip members with at least one each: if there is a member with several, then the iteration yields some of the records, as they are and in order, but not all, and
then raises the exception.
Partial: which records are yielded before the exception depends on how the file is read (`C37_not_reported`); the user reads from the records or leaves them, and does not ask for positions. -/
theorem C37_groups_partial (L : LawfulGzip IsMember) {f : FileObj} {io : IterOpts} {ms : List (Bytes × List WarcRecord)} (hz : ∀ x ∈ ms, IsMember x.1 (x.2.flatMap WarcRecord.bytes) ∧ x.2 ≠ [])
    (hmany : ∃ x ∈ ms, x.2.length ≠ 1) (hf : f.rest = ms.flatMap (·.1)) (hw : Fit io (ms.flatMap (·.2))) {bs m : Nat} (hr : ReadsGz f bs m (ms.map (·.1))) {kf : Option Format} (hk : kf ≠ some .arc) :
    ∃ it, openArchive f io bs kf = .ok it ∧ ∀ plan : List (List UserOp), (∀ ops ∈ plan, ∀ o ∈ ops, ∃ c : Call, o = .call c ∧ c.nonneg) → (ms.flatMap (·.2)).length ≤ plan.length →
      ∃ (ys zs : List WarcRecord) (rs more : List Step), ms.flatMap (·.2) = ys ++ zs ∧ zs ≠ [] ∧ iterate it plan = rs ++ .error .nonChunkedGzip :: more ∧
        Each (fun w s => ∃ rec left vs, s = .ok (some rec, vs) ∧ w.Shows io m rec left) ys rs := by
  have hl : m = 0 ∨ (f.caps = [] ∧ ∀ x ∈ ms, Steady bs m x.1) := hr.lines.imp id (fun h => ⟨h.1, fun x hx => h.2 x.1 (List.mem_map_of_mem hx)⟩)
  have hb := hr.block
  clear hr
  let tag : List WarcRecord → List (WarcRecord × Bytes) := fun ws => ws.map (fun w => (w, []))
  have htag : ∀ ws, flatR (tag ws) = ws.flatMap WarcRecord.bytes := fun ws => by simp [flatR, tag, List.flatMap_map]
  match ms, hmany with
  | [], h => obtain ⟨_, h, _⟩ := h; cases h
  | (z, here) :: ms, hmany =>
    obtain ⟨V, Q, it, v1, v2, v3, v4, v5⟩ := open_gz_any L (f := f) (bs := bs) (m := m) hb (z := z) (data := flatR (tag here)) (ms := ms.map (fun x => (x.1, flatR (tag x.2))))
      (hl.imp id (fun h => ⟨h.1, fun x hx => by
        rcases List.mem_cons.1 hx with rfl | hx
        · exact h.2 (z, here) (by simp)
        · obtain ⟨y, hy, rfl⟩ := List.mem_map.1 hx
          exact h.2 y (by simp [hy])⟩))
      (fun x hx => by
        rcases List.mem_cons.1 hx with rfl | hx
        · rw [htag]; exact (hz (z, here) (by simp)).1
        · obtain ⟨y, hy, rfl⟩ := List.mem_map.1 hx
          rw [htag]; exact (hz y (by simp [hy])).1)
      (by rw [hf]; simp [List.flatMap_map]) io kf
    refine ⟨it, v3, fun plan hp hlen => ?_⟩
    have hmem : membersOf (ms.map (fun x => (x.1, flatR (tag x.2)))) = (ms.map (fun x => (x.1, tag x.2))).flatMap (·.1) := by simp [membersOf, List.flatMap_map]
    have htop : LTop L V (f.origin + len f.rest) bs Q io false (tag here) (ms.map (fun x => (x.1, tag x.2))) it := by
      refine ⟨⟨v5.opts, by rw [v5.known]; exact hk, v5.closed, v5.calm, v5.more, by simpa using v5.quiet, fun _ _ h => by rw [open_no_record v3] at h; cases h⟩, .inl ⟨v5.line, .inl ?_⟩⟩
      rw [← hmem]
      exact v5.view
    have hall : ((z, here) :: ms).flatMap (·.2) = (tag here ++ (ms.map (fun x => (x.1, tag x.2))).flatMap (·.2)).map (·.1) := by
      simp [tag, List.flatMap_map, List.map_flatMap, Function.comp_def]
    obtain ⟨ys, zs, rs, more, i1, i2, i3, i4⟩ := iterate_loose (io := io) v1 v2 _ (fun x hx => by
        have hx' : x.1 ∈ ((z, here) :: ms).flatMap (·.2) := by rw [hall]; exact List.mem_map_of_mem hx
        exact ⟨(hw.good _ hx').item hw.verify (hw.quiet _ hx') m, (hw.good _ hx').sep⟩) (tag here) (ms.map (fun x => (x.1, tag x.2))) rfl (by simpa [tag] using (hz (z, here) (by simp)).2)
      (fun y hy => by
        obtain ⟨x, hx, rfl⟩ := List.mem_map.1 hy
        exact ⟨by rw [htag]; exact (hz x (by simp [hx])).1, (v5.mem (x.1, flatR (tag x.2)) (List.mem_map.2 ⟨x, hx, rfl⟩)).2, by simpa [tag] using (hz x (by simp [hx])).2⟩)
      it it false _ (next_start v4) htop (.inr (by
        rintro ⟨s1, s2⟩
        obtain ⟨x, hx, hne⟩ := hmany
        rcases List.mem_cons.1 hx with rfl | hx
        · exact hne (by simpa [tag] using s1)
        · exact hne (by simpa [tag] using s2 (x.1, tag x.2) (List.mem_map.2 ⟨x, hx, rfl⟩)))) plan hp (by rw [hall, List.length_map] at hlen; exact hlen)
    refine ⟨ys.map (·.1), zs.map (·.1), rs, more, by rw [hall, i1, List.map_append], by simpa using i2, i3, ?_⟩
    clear i1 i3
    induction i4 with
    | nil => exact .nil
    | cons h _ ih => exact .cons h ih

end
open Toy

/-- What `C37_groups_partial` says of four records in three members: here three are yielded. -/
example : (steps { content := compress (exNumbered "1") ++ compress (exNumbered "2" ++ exNumbered "3") ++ compress (exNumbered "4") } {} 16384 [[], [.call (.read (some 1))], [], []]).map (fun s => s.isOk) = [true, true, true, false] ∧
    (steps { content := compress (exNumbered "1") ++ compress (exNumbered "2" ++ exNumbered "3") ++ compress (exNumbered "4") } {} 16384 [[], [.call (.read (some 1))], [], []]).drop 3 = [.error .nonChunkedGzip] := by
  decide +kernel

/-- Five records in three members. -/
def exGrouping : List (Bytes × List (WarcRecord × Bytes)) :=
  [exRecords, [(exInfo, exInfo.block)], exRecords].map (fun xs => (compress (xs.flatMap (·.1.bytes)), xs))

theorem exGrouping_rewritable : ∀ x ∈ exGrouping.flatMap (·.2), x.1.Rewritable 17 x.2 := by
  intro x hx
  apply exRecords_rewritable
  have hall : exGrouping.flatMap (·.2) = exRecords ++ ([(exInfo, exInfo.block)] ++ (exRecords ++ [])) := rfl
  rw [hall] at hx
  rcases List.mem_append.1 hx with h | h
  · exact h
  rcases List.mem_append.1 h with h | h
  · exact List.mem_cons_of_mem _ h
  · rwa [List.append_nil] at h

/-- The hypotheses of `C60_first` and `C60_groups_partial`. -/
example : (∀ x ∈ exGrouping, IsMember x.1 (x.2.flatMap (·.1.bytes)) ∧ x.2 ≠ []) ∧ (∀ x ∈ exGrouping.flatMap (·.2), x.1.Rewritable 17 x.2) ∧
    NoRun 65536 (exGrouping.map (fun x => x.2.flatMap (·.1.bytes))) ∧ ReadsGz ({ content := exGrouping.flatMap (·.1) } : FileObj) 16384 17 (exGrouping.map (·.1)) := by
  refine ⟨?_, exGrouping_rewritable, by decide +kernel, (.fit (by decide) rfl (by decide +kernel))⟩
  · intro x hx
    simp only [exGrouping, List.map_cons, List.map_nil, List.mem_cons, List.not_mem_nil, or_false] at hx
    rcases hx with rfl | rfl | rfl
    all_goals exact ⟨rfl, List.cons_ne_nil _ _⟩

/-- The hypotheses of `C37_groups_partial` (the others are as above). -/
example : let ms := exGrouping.map (fun x => (x.1, x.2.map (·.1)))
    Fit (opts (fun _ => [])) (ms.flatMap (·.2)) ∧ (∃ x ∈ ms, x.2.length ≠ 1) := by
  refine ⟨?_, _, List.mem_cons_self .., by decide⟩
  have := opts_fit (ids := fun _ => []) exGrouping_rewritable
  rw [List.map_flatMap] at this
  rw [List.flatMap_map]
  exact this

/-- What it says of five records in three members, and of three in three. -/
example : (recompress { gzip := true } (fun _ => []) { content := compress (exNumbered "1" ++ exNumbered "2") ++ compress (exNumbered "3") ++ compress (exNumbered "4" ++ exNumbered "5") } []).1 = .fixed 5 ∧
    (recompress { gzip := true } (fun _ => []) { content := compress (exNumbered "1") ++ compress (exNumbered "2") ++ compress (exNumbered "3") } []).1 = .noErrors 3 := by
  decide +kernel

end Warcio.Props
