import Verif.Props.Again
import Verif.Props.Same

/-!
# C83 and C85, any grouping: what `warcio check` and `warcio index` say of a recompressed file, however the records were compressed before
-/

namespace Warcio.Props
open Warcio ArchiveIter Recompressor Checker Indexer

section
variable [PyUni] [Hashlib] [Zlib] [Deflater] {IsMember : Bytes → Bytes → Prop} {IsCoded : DType → Bytes → Bytes → Prop}

set_option linter.unusedSectionVars false

/-- C83, for records that are not compressed or grouped into gzip members in any way: after `recompress`, `check` reads the whole new file; it names exactly the records whose digests are wrong, in order,
and exits with 1 iff there is one.
Partial as `C83_plain_partial` and, for members with several records, as `C60_groups_partial`. -/
theorem C83_groups_partial (L : LawfulGzip IsMember) (D : LawfulDeflater IsMember) (LC : LawfulCodecs IsCoded) {f : Bytes → Bytes} (H : Hashlib.hash (lit "sha1") = some f)
    (hl : ∀ algo g, Hashlib.hash algo = some g → ∀ a b, (g a).length = (g b).length) {c : BuilderCfg} (hf : c.filter = some) (hc : c.gzip = true)
    {m : Nat} {rs : List (WarcRecord × Bytes × Option Bool)} (hne : rs ≠ []) (hw : ∀ r ∈ rs, r.1.Rewritable m r.2.1 ∧ Checkable IsCoded m r.1 r.2.2)
    {g : FileObj} (hg : Recompressible IsMember m (rs.map (fun r => (r.1, r.2.1))) g) (ids : Nat → Str) (again : List Nat) :
    ∃ (zs : List Bytes) (o : Recompressor.Outcome), zs.length = rs.length ∧ (o = .noErrors rs.length ∨ o = .fixed rs.length) ∧ recompress c ids g again = (o, ({} : OutFile).extended zs.flatten) ∧
      ∀ {g' : FileObj}, g'.rest = zs.flatten → ReadsGz g' 16384 m zs → ∀ verbose name, ∃ p, processAll verbose [(name, g')] 0 = (.ok (if ∃ r ∈ rs, r.2.2 = some false then 1 else 0), p) ∧
        failures p = (rs.filter (fun r => r.2.2 = some false)).map (fun r => nameOf r.1) ∧ unreadable p = false := by
  obtain ⟨out, o, o1, o2, o3⟩ := hg.run L D H hf hc (by simpa using hne)
    (by intro x hx; obtain ⟨r, hr, rfl⟩ := List.mem_map.1 hx; exact (hw r hr).1) ids again
  rw [List.length_map] at o2
  refine ⟨out.map (·.1), o, ?_, o2, by rw [o3]; rfl, ?_⟩
  · have := each_len o1
    rw [List.length_map] at this
    rw [List.length_map, this]
  · intro g' h1 h2 verbose name
    obtain ⟨zs, z1, z2⟩ := copied_input (IsCoded := IsCoded) L H hl hne hw o1 (g := g') (by rw [h1]; rfl) h2
    obtain ⟨k1, k2⟩ := kept_failures z2
    obtain ⟨p', q1, q2, q3⟩ := judged L LC z1 verbose name
    refine ⟨p', ?_, by rw [q2, k1], q3⟩
    rw [q1]
    refine congrArg (fun n => (Except.ok n, p')) (ite_congr (propext ?_) (fun _ => rfl) (fun _ => rfl))
    rw [k2]; simp

/-- C85, for records that are not compressed or grouped into gzip members in any way: after `recompress`, `warcio index` prints for the new file what it prints for an archive (`g₀`, say the uncompressed one) with
the same records, for any fields that say something about the records.  (For a file with several records in a member, `index` fails.)
Partial as `C85_index_partial` and, for members with several records, as `C60_groups_partial`. -/
theorem C85_groups_partial (L : LawfulGzip IsMember) (D : LawfulDeflater IsMember) {f : Bytes → Bytes} (H : Hashlib.hash (lit "sha1") = some f) {c : BuilderCfg} (hf : c.filter = some) (hc : c.gzip = true) {m : Nat}
    {g₀ : FileObj} {ls : List Located} (ha : Archived IsMember m g₀ ls) (hne : ls ≠ []) {xs : List (WarcRecord × Bytes)} (hx : xs.map (·.1) = ls.map (·.record)) (hw : ∀ x ∈ xs, x.1.Rewritable m x.2)
    {g : FileObj} (hg : Recompressible IsMember m xs g) (ids : Nat → Str) (again : List Nat) :
    ∃ (zs : List Bytes) (o : Recompressor.Outcome), zs.length = ls.length ∧ (o = .noErrors ls.length ∨ o = .fixed ls.length) ∧ recompress c ids g again = (o, ({} : OutFile).extended zs.flatten) ∧
      ∀ {g' : FileObj}, g'.rest = zs.flatten → ReadsGz g' 16384 m zs → ∀ {fields : List Str}, (∀ n ∈ fields, Lasting n) → (∀ l ∈ ls, Indexable fields m l) → ∀ ids ids' file file',
        index fields false ids' [(file', g')] = index fields false ids [(file, g₀)] ∧ (index fields false ids [(file, g₀)]).1 = .ok () := by
  have hl : xs.length = ls.length := by simpa using congrArg List.length hx
  have hne' : xs ≠ [] := by
    rintro rfl
    exact hne (List.length_eq_zero_iff.1 hl.symm)
  obtain ⟨out, o, o1, o2, o3⟩ := hg.run L D H hf hc hne' hw ids again
  rw [hl] at o2
  obtain ⟨ts, t1, t2⟩ := out_parts o1 hw hx
  have e : out.map (·.1) = ts.map (·.1) := by rw [← t1, List.map_map]; rfl
  refine ⟨out.map (·.1), o, by rw [List.length_map, each_len o1, hl], o2, by rw [o3]; rfl, ?_⟩
  intro g' h1 h2 fields hn hi ids ids' file file'
  have k1 : Archived IsMember m g' (placementsGz g'.origin ts) := by
    refine .gzip g' ts ?_ ?_ ?_ (by rw [← e]; exact h2)
    · rintro rfl
      rw [← t1] at o1
      cases xs with
      | nil => exact hne' rfl
      | cons _ _ => cases o1
    · intro t ht
      exact copied_stored o1 (t.1, t.2.1) (by rw [← t1]; exact List.mem_map.2 ⟨t, ht, rfl⟩)
    · rw [h1, e]; rfl
  have k2 := t2 g'.origin
  have hi' : ∀ l' ∈ placementsGz g'.origin ts, Indexable fields m l' := by
    intro l' hl'
    obtain ⟨l, hl, p, q1, q2, q3⟩ := each_right k2 l' hl'
    exact indexable_again q2 q3 (hi l hl)
  have e1 := C58_entries L ha hi (basename_spec file) ids
  have e2 := C58_entries L k1 hi' (basename_spec file') ids'
  rw [lasting_entries hn (basename file) (basename file') k2] at e2
  have i1 : index fields false ids [(file, g₀)] = (.ok (), (ls.map (fun l => l.entry (basename file) fields)).flatMap jsonLine ++ []) := by
    unfold index
    rw [e1]
    rfl
  have i2 : index fields false ids' [(file', g')] = (.ok (), (ls.map (fun l => l.entry (basename file) fields)).flatMap jsonLine ++ []) := by
    unfold index
    rw [e2]
    rfl
  exact ⟨i2.trans i1.symm, by rw [i1]⟩

end

open Toy in
/-- The four records of `exChecked` in two members: the other hypotheses of `C83_groups_partial` (those about the records: see `C83_plain_partial`). -/
example : let ms := [exChecked.take 1, exChecked.drop 1].map (fun rs => (compress (rs.flatMap (·.1.bytes)), rs.map (fun r => (r.1, r.2.1))))
    Recompressible IsMember 64 (exChecked.map (fun r => (r.1, r.2.1))) { content := ms.flatMap (·.1) } :=
  .groups _ (by
    intro x hx
    simp only [List.map_cons, List.map_nil, List.mem_cons, List.not_mem_nil, or_false] at hx
    rcases hx with rfl | rfl
    all_goals exact ⟨rfl, List.cons_ne_nil _ _⟩) rfl (by decide +kernel) (by decide) rfl rfl rfl (.fit (by decide) rfl (by decide +kernel))

open Toy in
/-- `C85_groups_partial`: `exFile` is an archive of the records of `exOne`, which holds them in one member (the other hypotheses: see `C85_index_partial`). -/
example : Recompressible IsMember 17 exRecords exOne ∧ exRecords.map (·.1) = (placements exFile.origin [(exHttp, some exHttpHead), (exInfo, none)]).map (·.record) :=
  ⟨.groups [(exOne.content, exRecords)] (by intro x hx; rw [List.mem_singleton.1 hx]; exact ⟨rfl, List.cons_ne_nil _ _⟩) (by simp) (by decide +kernel) (by decide) rfl rfl (by simp [FileObj.rest, exOne])
    (.fit (by decide) rfl (by decide +kernel)), by rfl⟩

end Warcio.Props
