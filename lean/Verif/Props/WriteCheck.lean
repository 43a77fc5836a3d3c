import Verif.Spec.WriteCheck
import Verif.Props.ReadBack
import Verif.Props.Check

/-!
# Property C75: what is written passes the check

Specification: `Verif/Spec/WriteCheck.lean`.
-/

set_option linter.unusedSectionVars false

namespace Warcio.Props

open Warcio Writer Builder ArchiveIter Loader StatusAndHeaders Checker

section
variable [PyUni] {f : Bytes → Bytes} {r : OutRecord FileObj} {hb d : Bytes}

/-- Removing the last header of a name leaves the first of another, or it was the only one. -/
theorem find_removed (n m : Str) (hs : List (Str × Str)) : findHeader n (removeIn hs m).2 = none ∨ findHeader n (removeIn hs m).2 = findHeader n hs := by
  rcases last_match m hs with h0 | ⟨pre, y, post, rfl, h1, h2⟩
  · rw [removeIn_none h0]; exact .inr rfl
  · rw [removeIn_some h1 h2]
    dsimp only
    rw [findHeader_filter, findHeader_filter, List.filter_append, List.filter_append, List.filter_cons]
    by_cases hy : nameEq n y = true
    · have hp : post.filter (nameEq n) = [] := by
        rw [List.filter_eq_nil_iff]
        intro x hx hc
        have e := h2 x hx
        unfold nameEq at h1 hy hc e
        simp only [beq_iff_eq] at h1 hy hc
        rw [← h1, hy, ← hc] at e
        simp at e
      rw [hp, List.append_nil]
      cases pre.filter (nameEq n) with
      | nil => exact .inl rfl
      | cons a t => exact .inr rfl
    · rw [if_neg hy]; exact .inr rfl

/-- Digests that the writer is given: they are kept, or removed. -/
theorem base_first (r : OutRecord FileObj) (n : Str) : findHeader n (baseHeaders r) = none ∨ findHeader n (baseHeaders r) = findHeader n r.recHeaders.headers := by
  have step : ∀ {a b c : List (Str × Str)}, (findHeader n a = none ∨ findHeader n a = findHeader n b) → (findHeader n b = none ∨ findHeader n b = findHeader n c) →
      (findHeader n a = none ∨ findHeader n a = findHeader n c) := by
    intro a b c h1 h2
    rcases h1 with h1 | h1
    · exact .inl h1
    · rw [h1]; exact h2
  unfold baseHeaders
  split
  · exact .inr rfl
  · refine step (find_removed _ _ _) ?_
    split
    · exact find_removed _ _ _
    · exact step (find_removed _ _ _) (find_removed _ _ _)

theorem base_right [Hashlib] {block : Bytes} (h : RightDigests r block d) (ht : r.recType ≠ some (lit "revisit")) :
    (∀ v, findHeader (lit "WARC-Block-Digest") (baseHeaders r) = some v → Outcome block (some v) (some true)) ∧
      ∀ v, findHeader (lit "WARC-Payload-Digest") (baseHeaders r) = some v → Outcome d (some v) (some true) := by
  obtain ⟨-, -, -, n4, n5, n6⟩ := names_differ
  cases h with
  | revisit h => exact absurd h ht
  | given h1 h2 =>
    rw [firstValue_eq] at h1 h2
    constructor
    · intro v hv
      rcases base_first r (lit "WARC-Block-Digest") with h | h
      · rw [h] at hv; cases hv
      · rw [h] at hv; exact h1 v hv
    · intro v hv
      rcases base_first r (lit "WARC-Payload-Digest") with h | h
      · rw [h] at hv; cases hv
      · rw [h] at hv; exact h2 v hv
  | unknown hk h1 h2 =>
    have e : findHeader (lit "WARC-Block-Digest") (baseHeaders r) = none ∧ findHeader (lit "WARC-Payload-Digest") (baseHeaders r) = none := by
      unfold baseHeaders
      rw [hk]
      simp only [ht, if_false]
      have gone : ∀ {n m : Str} {hs : List (Str × Str)}, findHeader n hs = none → findHeader n (removeIn hs m).2 = none := by
        intro n m hs h
        rcases find_removed n m hs with h' | h'
        · exact h'
        · rw [h', h]
      constructor
      · exact gone (gone (filter_nil_iff.1 (filter_remove_self h1)))
      · refine gone (filter_nil_iff.1 (filter_remove_self ?_))
        show (List.filter (nameEq (lit "WARC-Payload-Digest")) _).length ≤ 1
        rw [filter_remove_passes (passes_other n6)]
        exact h2
    rw [e.1, e.2]
    exact ⟨fun v hv => (by cases hv), fun v hv => (by cases hv)⟩

theorem right_truthy [Hashlib] {data : Bytes} {v : Str} (h : Outcome data (some v) (some true)) : Loader.truthy (some v) = true := by
  cases h with
  | good algo x g _ _ _ => simp [Loader.truthy]

theorem sha1_right [Hashlib] (H : Hashlib.hash (lit "sha1") = some f) (d : Bytes) : Outcome d (some (sha1Text f d)) (some true) :=
  .good (lit "sha1") _ f (by decide) H (.b32 _)

theorem written_block [Hashlib] (H : Hashlib.hash (lit "sha1") = some f) (h : RightDigests r (hb ++ d) d) (ht : r.recType ≠ some (lit "revisit")) :
    ∃ v, (fileRecord f hb d r).value (lit "WARC-Block-Digest") = some v ∧ Outcome (hb ++ d) (some v) (some true) := by
  obtain ⟨b1, -⟩ := base_right h ht
  have hB := (written_digests f r hb d (.inl rfl)).trans (block_digests f r hb d)
  show ∃ v, firstValue _ (writtenHeaders f r hb d) = _ ∧ _
  rw [firstValue_eq, findHeader_filter, hB]
  cases hv : findHeader (lit "WARC-Block-Digest") (baseHeaders r) with
  | none =>
    rw [filter_nil_iff.2 hv]
    exact ⟨_, rfl, sha1_right H _⟩
  | some v =>
    rw [right_truthy (b1 v hv), if_pos rfl, List.append_nil, ← findHeader_filter, hv]
    exact ⟨v, rfl, b1 v hv⟩

theorem written_payload [Hashlib] (H : Hashlib.hash (lit "sha1") = some f) {block : Bytes} (h : RightDigests r block d) (ht : r.recType ≠ some (lit "revisit")) :
    (r.recType = some (lit "warcinfo") ∧ (fileRecord f hb d r).value (lit "WARC-Payload-Digest") = none) ∨
      ∃ v, (fileRecord f hb d r).value (lit "WARC-Payload-Digest") = some v ∧ Outcome d (some v) (some true) := by
  obtain ⟨-, b1⟩ := base_right h ht
  have hB := (written_digests f r hb d (.inr rfl)).trans (payload_digests f r hb d)
  show (_ ∧ firstValue _ (writtenHeaders f r hb d) = _) ∨ ∃ v, firstValue _ (writtenHeaders f r hb d) = _ ∧ _
  rw [firstValue_eq, findHeader_filter, hB]
  cases hv : findHeader (lit "WARC-Payload-Digest") (baseHeaders r) with
  | none =>
    rw [filter_nil_iff.2 hv]
    have h2 : (r.recType == some (lit "revisit")) = false := by simpa using ht
    by_cases h3 : r.recType = some (lit "warcinfo")
    · refine .inl ⟨h3, ?_⟩
      simp [Builder.noPayloadDigest, h3, Loader.truthy]
    · have h3' : (r.recType == some (lit "warcinfo")) = false := by simpa using h3
      refine .inr ⟨_, ?_, sha1_right H _⟩
      simp only [Builder.noPayloadDigest, h3', h2, Loader.truthy, Bool.or_false, List.nil_append]
      rfl
  | some v =>
    rw [right_truthy (b1 v hv), Bool.true_or, if_pos rfl, List.append_nil, ← findHeader_filter, hv]
    exact .inr ⟨v, rfl, b1 v hv⟩

theorem written_segment : (fileRecord f hb d r).value (lit "WARC-Segment-Number") = firstValue (lit "WARC-Segment-Number") r.recHeaders.headers :=
  written_value (differ (by decide) (by decide) (by decide)) (differ (by decide) (by decide) (by decide)) (differ (by decide) (by decide) (by decide)) (differ (by decide) (by decide) (by decide))

end

section
variable [PyUni] [Hashlib] [Zlib] {IsCoded : DType → Bytes → Bytes → Prop} {f : Bytes → Bytes} {r : OutRecord FileObj} {hb d : Bytes} {m : Nat}

/-- A digest that is right of some data is right or wrong of any other. -/
theorem right_usable (hl : ∀ algo g, Hashlib.hash algo = some g → ∀ a b, (g a).length = (g b).length) {d : Bytes} {v : Str} (h : Outcome d (some v) (some true)) (data : Bytes) :
    ∃ x, Outcome data (some v) x := by
  cases h with
  | good algo x g h1 h2 h3 =>
    by_cases he : g d = g data
    · exact ⟨some true, .good algo x g h1 h2 (he ▸ h3)⟩
    · exact ⟨some false, .bad algo x g (g d) h1 h2 h3 (hl algo g h2 _ _) he⟩

theorem right_known {d : Bytes} {v : Str} (h : Outcome d (some v) (some true)) : ¬ UnknownDigest (some v) := by
  rintro ⟨x, h1, -, h2⟩
  cases h1
  cases h with
  | good algo x g k1 k2 k3 =>
    rw [h2 algo x rfl k1] at k2
    cases k2

theorem noDigest_outcome (data : Bytes) : BlockOutcome data none none := by
  by_cases h : data = []
  · refine .passed_over h ?_
    rintro ⟨_, h, _⟩; cases h
  · exact .compared _ h .absent

/-- A record that is written can be checked, and does not fail. -/
theorem written_checkable (H : Hashlib.hash (lit "sha1") = some f) (hl : ∀ algo g, Hashlib.hash algo = some g → ∀ a b, (g a).length = (g b).length) (hr : Regular r)
    (hu : RightDigests r (blockOf r hb d) d) (hp : PayloadFound IsCoded m r hb d) (hm : HttpRecord r.recType (firstValue (lit "WARC-Target-URI") r.recHeaders.headers) → 64 ≤ m) :
    ∃ v, Checkable IsCoded m (fileRecord f hb d r) v ∧ v ≠ some false ∧ (MustPass r (blockOf r hb d) → v = some true) := by
  have etype : (fileRecord f hb d r).value (lit "WARC-Type") = r.recType := by rw [hr.recType]; exact written_recType
  have eblock : (fileRecord f hb d r).block = blockOf r hb d := rfl
  have hpart : ∃ p, (fileRecord f hb d r).Payload m p ∧ (r.recType ≠ some (lit "revisit") → p = d) ∧ ∃ x, (fileRecord f hb d r).Content IsCoded m x := by
    cases hp with
    | whole h1 h2 =>
      have h3 : ¬ (fileRecord f hb d r).Http ∨ (fileRecord f hb d r).block = [] := h2.imp (fun h hx => h (hr.http_iff.1 hx)) id
      refine ⟨_, .whole h3, fun ht => ?_, _, .whole h3⟩
      rw [eblock, blockOf, if_neg ht, h1]
      rfl
    | http h p x h1 h2 h3 h4 h5 h6 =>
      have hbb : hb = h.toBytes := by rw [h3, toBytes_headText h2.protocol.1]
      have key := httpHead_toBytes h2 p
      rw [← hbb, ← h5] at key
      refine ⟨p, .http h p (hr.http_iff.2 h1) h4 key.first key, fun ht => ?_, x, .http h p x (hr.http_iff.2 h1) h4 key.first key h2.truthy h6⟩
      rw [blockOf, if_neg ht] at h5
      exact (List.append_cancel_left h5).symm
  obtain ⟨p, p1, p2, p3⟩ := hpart
  by_cases ht : r.recType = some (lit "revisit")
  · have hd : (fileRecord f hb d r).digests = (none, none) := by
      unfold WarcRecord.digests lookedAt
      rw [etype, if_pos ht]
    have hu : ∀ data, (∃ x, Outcome data (fileRecord f hb d r).digests.1 x) ∧ ∃ x, Outcome data (fileRecord f hb d r).digests.2 x := by
      rw [hd]
      exact fun data => ⟨⟨_, .absent⟩, _, .absent⟩
    refine ⟨none, ⟨hu, p3, fun h => hm (hr.http_iff.1 h), p, none, none, p1, ?_, ?_, rfl⟩, by simp, fun h => absurd ht h.1⟩
    · rw [hd]; exact noDigest_outcome _
    · rw [hd]; exact .absent
  · obtain rfl := p2 ht
    have hbl : blockOf r hb p = hb ++ p := by rw [blockOf, if_neg ht]
    rw [hbl] at hu
    obtain ⟨v, v1, v2⟩ := written_block H hu ht
    have hw := written_payload (hb := hb) H hu ht
    have hd1 : (fileRecord f hb p r).digests.1 = some v := by
      unfold WarcRecord.digests lookedAt
      rw [etype, if_neg ht]
      split <;> exact v1
    have hd2 : ((fileRecord f hb p r).digests.2 = none ∧ (r.recType = some (lit "warcinfo") ∨ firstValue (lit "WARC-Segment-Number") r.recHeaders.headers ≠ none)) ∨
        ∃ w, (fileRecord f hb p r).digests.2 = some w ∧ Outcome p (some w) (some true) := by
      unfold WarcRecord.digests lookedAt
      rw [etype, if_neg ht, written_segment]
      by_cases hs : (firstValue (lit "WARC-Segment-Number") r.recHeaders.headers).isSome = true
      · rw [if_pos hs]
        exact .inl ⟨rfl, .inr (by rw [Option.isSome_iff_ne_none] at hs; exact hs)⟩
      · rw [if_neg hs]
        rcases hw with ⟨k1, k2⟩ | ⟨w, k1, k2⟩
        · exact .inl ⟨k2, .inl k1⟩
        · exact .inr ⟨w, k1, k2⟩
    have hus1 : ∀ data, ∃ x, Outcome data (fileRecord f hb p r).digests.1 x := by
      rw [hd1]
      exact right_usable hl v2
    have hob : BlockOutcome (fileRecord f hb p r).block (fileRecord f hb p r).digests.1 (if hb ++ p = [] then none else some true) := by
      rw [hd1, eblock, hbl]
      by_cases h0 : hb ++ p = []
      · rw [if_pos h0]; exact .passed_over h0 (right_known v2)
      · rw [if_neg h0]; exact .compared _ h0 v2
    have hus2 : ∀ data, ∃ x, Outcome data (fileRecord f hb p r).digests.2 x := by
      rcases hd2 with ⟨hd2, -⟩ | ⟨w, hd2, w2⟩
      · rw [hd2]; exact fun _ => ⟨_, .absent⟩
      · rw [hd2]; exact right_usable hl w2
    rcases hd2 with ⟨hd2, why⟩ | ⟨w, hd2, w2⟩
    · refine ⟨_, ⟨fun data => ⟨hus1 data, hus2 data⟩, p3, fun h => hm (hr.http_iff.1 h), p, _, none, p1, hob, by rw [hd2]; exact .absent, rfl⟩, ?_, ?_⟩
      · split <;> decide
      · rintro ⟨-, hc⟩
        rw [hbl] at hc
        rcases hc with hc | ⟨c1, c2⟩
        · rw [if_neg hc]; rfl
        · rcases why with h | h
          · exact absurd h c1
          · exact absurd c2 h
    · refine ⟨_, ⟨fun data => ⟨hus1 data, hus2 data⟩, p3, fun h => hm (hr.http_iff.1 h), p, _, some true, p1, hob, by rw [hd2]; exact w2, rfl⟩, ?_, ?_⟩
      · split <;> decide
      · intro _
        split <;> rfl

theorem each_with {α β : Type} {R S : α → β → Prop} : ∀ {as : List α} {bs : List β}, Each R as bs → (∀ a ∈ as, ∀ b, R a b → S a b) → Each S as bs
  | _, _, .nil, _ => .nil
  | _, _, .cons h t, f => .cons (f _ (List.mem_cons_self ..) _ h) (each_with t (fun a ha => f a (List.mem_cons_of_mem _ ha)))

theorem each_right {α β : Type} {R : α → β → Prop} {as : List α} {bs : List β} (h : Each R as bs) : ∀ b ∈ bs, ∃ a ∈ as, R a b := by
  induction h with
  | nil => simp
  | cons h1 _ ih =>
    intro b hb
    rcases List.mem_cons.1 hb with rfl | hb
    · exact ⟨_, List.mem_cons_self .., h1⟩
    · obtain ⟨a, ha, h⟩ := ih b hb
      exact ⟨a, List.mem_cons_of_mem _ ha, h⟩

theorem written_id : (fileRecord f hb d r).value (lit "WARC-Record-ID") = firstValue (lit "WARC-Record-ID") r.recHeaders.headers :=
  written_value (differ (by decide) (by decide) (by decide)) (differ (by decide) (by decide) (by decide)) (differ (by decide) (by decide) (by decide)) (differ (by decide) (by decide) (by decide))

/-- Verdicts put beside records. -/
theorem with_verdicts {α : Type} (k : α → WarcRecord) (Q : α → Option Bool → Prop) : ∀ (rs : List α) (locs : List Located), (∀ r ∈ rs, ∃ v, Q r v) → locs.map (·.record) = rs.map k →
    ∃ xs : List (Located × Option Bool), xs.map (·.1) = locs ∧ Each (fun r x => x.1.record = k r ∧ Q r x.2) rs xs
  | [], [], _, _ => ⟨[], rfl, .nil⟩
  | [], _ :: _, _, h => by simp at h
  | _ :: _, [], _, h => by simp at h
  | r :: rs, l :: locs, hq, h => by
    simp only [List.map_cons, List.cons.injEq] at h
    obtain ⟨xs, h1, h2⟩ := with_verdicts k Q rs locs (fun r hr => hq r (List.mem_cons_of_mem _ hr)) h.2
    obtain ⟨v, hv⟩ := hq r (List.mem_cons_self ..)
    exact ⟨(l, v) :: xs, by rw [List.map_cons, h1], .cons ⟨h.1, hv⟩ h2⟩

theorem placements_records : ∀ (xs : List (WarcRecord × Option StatusAndHeaders)) (off : Int), (placements off xs).map (·.record) = xs.map (·.1)
  | [], _ => rfl
  | (w, h) :: xs, off => by rw [placements, List.map_cons, placements_records xs, List.map_cons]

theorem placementsGz_records : ∀ (xs : List (Bytes × WarcRecord × Option StatusAndHeaders)) (off : Int), (placementsGz off xs).map (·.record) = xs.map (·.2.1)
  | [], _ => rfl
  | (z, w, h) :: xs, off => by rw [placementsGz, List.map_cons, placementsGz_records xs, List.map_cons]

theorem quiet_lines {xs : List (Located × Option Bool)} {lines : List Print} (hx : ∀ x ∈ xs, x.2 ≠ some false) (h : CheckLines false xs lines) : lines = [] := by
  induction h with
  | nil => rfl
  | bad x xs ps out _ _ _ => exact absurd rfl (hx _ (List.mem_cons_self ..))
  | quiet x v xs out _ _ _ ih => exact ih (fun x hx' => hx x (List.mem_cons_of_mem _ hx'))
  | note x v xs out _ h _ _ => cases h

theorem note_lines {α : Type} {rs : List α} {xs : List (Located × Option Bool)} {lines : List Print} {R : α → Located × Option Bool → Prop} (he : Each R rs xs) (hx : ∀ x ∈ xs, x.2 ≠ some false)
    (h : CheckLines true xs lines) :
    Each (fun r p => ∃ x, R r x ∧ p = .record x.1.offset (x.1.record.value (lit "WARC-Record-ID")) (x.1.record.value (lit "WARC-Type")) (some (x.1.record.note x.2)) []) rs lines := by
  induction h generalizing rs with
  | nil => cases he; exact .nil
  | bad x xs ps out _ _ _ => exact absurd rfl (hx _ (List.mem_cons_self ..))
  | quiet x v xs out _ h _ ih => cases h
  | note x v xs out _ h _ ih =>
    cases he with
    | cons h1 h2 => exact .cons ⟨_, h1, rfl⟩ (ih h2 (fun x hx' => hx x (List.mem_cons_of_mem _ hx')))

theorem written_approved {IsMember : Bytes → Bytes → Prop} (L : LawfulGzip IsMember) (LC : LawfulCodecs IsCoded) (H : Hashlib.hash (lit "sha1") = some f) (hl : ∀ algo g, Hashlib.hash algo = some g → ∀ a b, (g a).length = (g b).length)
    {rs : List (OutRecord FileObj × Bytes × Bytes)} (hr : ∀ x ∈ rs, Regular x.1) (hu : ∀ x ∈ rs, RightDigests x.1 (blockOf x.1 x.2.1 x.2.2) x.2.2) (hp : ∀ x ∈ rs, PayloadFound IsCoded m x.1 x.2.1 x.2.2) (hm : ∀ x ∈ rs, HttpRecord x.1.recType (firstValue (lit "WARC-Target-URI") x.1.recHeaders.headers) → 64 ≤ m)
    {g : FileObj} {locs : List Located} (ha : Archived IsMember m g locs) (hlocs : locs.map (·.record) = rs.map (fun x => fileRecord f x.2.1 x.2.2 x.1)) (verbose : Bool) (name : Str) :
    ∃ out, processAll verbose [(name, g)] 0 = (.ok 0, out) ∧ Approved verbose name rs out := by
  obtain ⟨xs, e1, e2⟩ := with_verdicts (fun x => fileRecord f x.2.1 x.2.2 x.1) (fun x v => Checkable IsCoded m (fileRecord f x.2.1 x.2.2 x.1) v ∧ v ≠ some false ∧ (MustPass x.1 (blockOf x.1 x.2.1 x.2.2) → v = some true)) rs locs
    (fun x hx => written_checkable H hl (hr x hx) (hu x hx) (hp x hx) (hm x hx)) hlocs
  have hfine : ∀ x ∈ xs, x.2 ≠ some false := by
    intro x hx
    obtain ⟨r, hr, h⟩ := each_right e2 x hx
    exact h.2.2.1
  have hin : CheckInput L IsCoded m g xs false := by
    refine .archive g xs (by rw [e1]; exact ha) fun x hx => ?_
    obtain ⟨r, hr', h⟩ := each_right e2 x hx
    rw [h.1]
    exact h.2.1
  obtain ⟨out, o1, o2⟩ := C57_check_partial L LC verbose [(name, g, xs, false)] (by intro i hi; rw [List.mem_singleton.1 hi]; exact hin)
  rw [if_neg (by
    rintro ⟨i, hi, h⟩
    rw [List.mem_singleton.1 hi] at h
    rcases h with h | ⟨x, hx, h⟩
    · cases h
    · exact hfine x hx h)] at o2
  refine ⟨out, o2, ?_⟩
  cases o1 with
  | cons _ _ _ lines _ out' h1 h2 =>
    cases h2
    rw [List.append_nil]
    unfold Approved
    cases verbose with
    | false => rw [quiet_lines hfine h1]; rfl
    | true =>
      rw [if_pos rfl]
      refine ⟨lines, rfl, ?_⟩
      have hT : ∀ {x : OutRecord FileObj × Bytes × Bytes}, x ∈ rs → (fileRecord f x.2.1 x.2.2 x.1).value (lit "WARC-Type") = x.1.recType := by
        intro x hx
        rw [(hr x hx).recType]
        exact written_recType
      refine each_with (note_lines e2 hfine h1) ?_
      rintro r hmem p ⟨x, ⟨h3, -, -, h4⟩, rfl⟩
      refine ⟨x.1.offset, x.1.record.note x.2, ?_, ?_⟩
      · rw [h3, hT hmem, written_id]
      · intro hpass
        rw [h4 hpass]
        rfl

end

section
variable [PyUni] [Hashlib] [Deflater] [Zlib] {IsMember : Bytes → Bytes → Prop} {IsCoded : DType → Bytes → Bytes → Prop}

/-- C75: records that are written to a new file pass `warcio check`: the exit value is 0 and nothing is printed, or with `-v` that the digests are right (`Approved`).
Partial: the payload has to be where readers look for it (`PayloadFound`), see `C75_resource` and `C75_whole_message`, and the digests are left to the writer or right (`RightDigests`),
see `C75_stale`; the other conditions are those of C43. -/
theorem C75_plain_partial (L : LawfulGzip IsMember) (LC : LawfulCodecs IsCoded) {f : Bytes → Bytes} (H : Hashlib.hash (lit "sha1") = some f) (hl : ∀ algo g, Hashlib.hash algo = some g → ∀ a b, (g a).length = (g b).length)
    {c : BuilderCfg} (hg : c.gzip = false) {m : Nat} {rs : List (OutRecord FileObj × Bytes × Bytes)} (hw : ∀ x ∈ rs, Writable c.filter x.1 x.2.1 x.2.2) (hr : ∀ x ∈ rs, Regular x.1)
    (hu : ∀ x ∈ rs, RightDigests x.1 (blockOf x.1 x.2.1 x.2.2) x.2.2) (hp : ∀ x ∈ rs, PayloadFound IsCoded m x.1 x.2.1 x.2.2) (hm : ∀ x ∈ rs, HttpRecord x.1.recType (firstValue (lit "WARC-Target-URI") x.1.recHeaders.headers) → 64 ≤ m) :
    ∃ data, writeAll c (rs.map (·.1)) {} = (.ok (), ({} : OutFile).extended data) ∧
      ∀ {g : FileObj}, g.rest = data → Reads g 16384 m → ∀ verbose name, ∃ out, processAll verbose [(name, g)] 0 = (.ok 0, out) ∧ Approved verbose name rs out := by
  refine ⟨_, writeAll_plain H hg rs hw (o := {}) rfl, ?_⟩
  intro g hrest hreads verbose name
  have ha : Archived IsMember m g (placements g.origin (rs.map (fun x => (fileRecord f x.2.1 x.2.2 x.1, none)))) := by
    refine .plain g _ ?_ ?_ hreads
    · intro x hx
      obtain ⟨y, hy, rfl⟩ := List.mem_map.1 hx
      exact (hr y hy).good
    · rw [hrest]
      simp only [List.flatMap, List.map_map]
      rfl
  refine written_approved L LC H hl hr hu hp hm ha ?_ verbose name
  rw [placements_records, List.map_map]
  rfl

/-- C75 for gzip files.  Partial as `C75_plain_partial`. -/
theorem C75_gzip_partial (L : LawfulGzip IsMember) (D : LawfulDeflater IsMember) (LC : LawfulCodecs IsCoded) {f : Bytes → Bytes} (H : Hashlib.hash (lit "sha1") = some f) (hl : ∀ algo g, Hashlib.hash algo = some g → ∀ a b, (g a).length = (g b).length)
    {c : BuilderCfg} (hg : c.gzip = true) {m : Nat} {rs : List (OutRecord FileObj × Bytes × Bytes)} (hne : rs ≠ []) (hw : ∀ x ∈ rs, Writable c.filter x.1 x.2.1 x.2.2) (hr : ∀ x ∈ rs, Regular x.1)
    (hu : ∀ x ∈ rs, RightDigests x.1 (blockOf x.1 x.2.1 x.2.2) x.2.2) (hp : ∀ x ∈ rs, PayloadFound IsCoded m x.1 x.2.1 x.2.2) (hm : ∀ x ∈ rs, HttpRecord x.1.recType (firstValue (lit "WARC-Target-URI") x.1.recHeaders.headers) → 64 ≤ m) :
    ∃ bs : List Bytes, bs.length = rs.length ∧ writeAll c (rs.map (·.1)) {} = (.ok (), ({} : OutFile).extended bs.flatten) ∧
      ∀ {g : FileObj}, g.rest = bs.flatten → ReadsGz g 16384 m bs → ∀ verbose name, ∃ out, processAll verbose [(name, g)] 0 = (.ok 0, out) ∧ Approved verbose name rs out := by
  obtain ⟨ms, m1, m2, m3⟩ := writeAll_gz D H hg rs hw (o := {}) rfl
  have hlen : ms.length = rs.length := by simpa using congrArg List.length m1
  refine ⟨ms.map (·.1), by simpa using hlen, by rw [m3]; rfl, ?_⟩
  intro g hrest hreads verbose name
  have ha : Archived IsMember m g (placementsGz g.origin (ms.map (fun x => (x.1, x.2, none)))) := by
    refine .gzip g _ ?_ ?_ ?_ ?_
    · intro h
      have := congrArg List.length h
      rw [List.length_map, hlen] at this
      exact hne (List.length_eq_zero_iff.1 this)
    · intro x hx
      obtain ⟨y, hy, rfl⟩ := List.mem_map.1 hx
      refine ⟨?_, m2 y hy⟩
      have : y.2 ∈ ms.map (·.2) := List.mem_map.2 ⟨y, hy, rfl⟩
      rw [m1] at this
      obtain ⟨x, hx, e⟩ := List.mem_map.1 this
      show y.2.Good
      rw [← e]
      exact (hr x hx).good
    · rw [hrest]
      simp only [List.flatMap, List.map_map]
      rfl
    · rw [List.map_map]
      exact hreads
  refine written_approved L LC H hl hr hu hp hm ha ?_ verbose name
  rw [placementsGz_records, List.map_map, ← m1]
  rfl

end

/-! ## The hypotheses are met, and the claims that fail -/

section
open Toy

/-- A record is written to a new file, and this is checked. -/
def wCheck (r : OutRecord FileObj) : Except PyErr Nat × List Print :=
  processAll true [(lit "a", { content := (write { gzip := false } r {}).2.2.content })] 0

theorem toy_lengths (algo : Str) (g : Bytes → Bytes) (h : Hashlib.hash algo = some g) (a b : Bytes) : (g a).length = (g b).length := by
  simp only [Hashlib.hash] at h
  split at h
  · cases h; simp
  · split at h
    · cases h; simp
    · cases h

/-- A record that is given digests: of another algorithm and encoding than the writer would use. -/
def wGiven : OutRecord FileObj :=
  { wResponse with recHeaders := { wResponse.recHeaders with headers := wResponse.recHeaders.headers ++
      [(lit "WARC-Payload-Digest", lit "md5:JiYmJiYmJiYmJiYmJiYmJg==")] } }

example : RightDigests wGiven (utf8Encode (lit "HTTP/1.0 200 OK\r\nA: b\r\n\r\nabc")) [97, 98, 99] := by
  refine .given (fun v hv => ?_) (fun v hv => ?_)
  · rw [show firstValue (lit "WARC-Block-Digest") wGiven.recHeaders.headers = none by decide] at hv; cases hv
  · rw [show firstValue (lit "WARC-Payload-Digest") wGiven.recHeaders.headers = some (lit "md5" ++ ':' :: Rfc4648.base64 (List.replicate 16 38)) by decide +kernel] at hv
    cases hv
    exact .good (lit "md5") _ (fun d => List.replicate 16 (d.foldl (· + ·) 0)) (by decide) rfl (.b64 _ (by decide))

/-- The hypotheses of `C75_plain_partial` and `C75_gzip_partial`, for `IsMember` and `toyCoded` (which are lawful, see `Verif/Toy.lean`). -/
example : (∀ algo g, Hashlib.hash algo = some g → ∀ a b : Bytes, (g a).length = (g b).length) ∧ Writable some wResponse (utf8Encode (lit "HTTP/1.0 200 OK\r\nA: b\r\n\r\n")) [97, 98, 99] ∧ Regular wResponse ∧ RightDigests wResponse (utf8Encode (lit "HTTP/1.0 200 OK\r\nA: b\r\n\r\nabc")) [97, 98, 99] ∧
    PayloadFound toyCoded 64 wResponse (utf8Encode (lit "HTTP/1.0 200 OK\r\nA: b\r\n\r\n")) [97, 98, 99] := by
  refine ⟨toy_lengths, ⟨rfl, w_httpPart, .payload 3 (by decide) rfl (by decide) (by decide), by decide⟩, w_regular, .given (fun v hv => ?_) (fun v hv => ?_), ?_⟩
  · rw [show firstValue (lit "WARC-Block-Digest") wResponse.recHeaders.headers = none by decide] at hv; cases hv
  · rw [show firstValue (lit "WARC-Payload-Digest") wResponse.recHeaders.headers = none by decide] at hv; cases hv
  refine .http wHttp [97, 98, 99] [97, 98, 99] ⟨.inl rfl, lit "http://a/", by decide, .inl (by decide)⟩ ⟨by decide, by decide, ?_, .inl (by decide)⟩ (by decide) ?_ (by decide +kernel) ?_
  · intro x hx
    rw [List.mem_singleton.1 hx]
    exact ⟨⟨by decide, by decide, by decide, by decide, by decide⟩, by decide, by decide⟩
  · exact .line (by decide +kernel) (by decide +kernel) (.line (by decide +kernel) (by decide +kernel) (.blank (by decide +kernel) (by decide +kernel) (by decide +kernel)))
  · have e1 : firstValue (lit "content-encoding") wHttp.headers = none := by decide
    have e2 : firstValue (lit "transfer-encoding") wHttp.headers = none := by decide
    rw [e1, e2]
    exact .plain none _ _ (by simp) .none (.none _)

/-- The same, computed. -/
example : wCheck wResponse = (.ok 0, [.file (lit "a"), .record 0 (some (lit "<urn:1>")) (some (lit "response")) (some (lit "digest pass")) []]) := by
  decide +kernel

/-- C75 fails for a record with HTTP headers of a type that is not read as HTTP message: the digest of the payload is written for what follows the headers,
and compared with the digest of the whole block. -/
theorem C75_resource : wCheck { wResponse with recType := some (lit "resource"), recHeaders := wHead (lit "resource") } =
    (.ok 1, [.file (lit "a"), .record 0 (some (lit "<urn:1>")) (some (lit "resource")) none [.payloadFailed (sha1Text sha1 [97, 98, 99])]]) := by
  decide +kernel

/-- C75 fails for a response that is given as a whole HTTP message, without HTTP headers of its own: the digest of the payload is written for the message,
and compared with the digest of what follows the headers. -/
theorem C75_whole_message : wCheck { wResponse with httpHeaders := none, length := none, raw := .own { content := utf8Encode (lit "HTTP/1.0 200 OK\r\nA: b\r\n\r\nabc") } } =
    (.ok 1, [.file (lit "a"), .record 0 (some (lit "<urn:1>")) (some (lit "response")) none [.payloadFailed (sha1Text sha1 (utf8Encode (lit "HTTP/1.0 200 OK\r\nA: b\r\n\r\nabc")))]]) := by
  decide +kernel

/-- C75 fails for a record of known length with digests of something else: they are kept. -/
theorem C75_stale : wCheck { wResponse with recHeaders := (wHead (lit "response")).addHeader (lit "WARC-Block-Digest") (sha1Text sha1 [97]) } =
    (.ok 1, [.file (lit "a"), .record 0 (some (lit "<urn:1>")) (some (lit "response")) none [.blockFailed (sha1Text sha1 [97])]]) := by
  decide +kernel

end
end Warcio.Props
