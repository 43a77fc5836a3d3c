import Verif.Spec.Recheck
import Verif.Props.WriteCheck
import Verif.Props.Recompress
import Verif.Props.Cli

/-!
# C83: recompressing does not change what `check` says
-/

namespace Warcio.Props

open Warcio ArchiveIter Checker

set_option linter.unusedSectionVars false

section
variable [PyUni] [Hashlib] {IsCoded : DType → Bytes → Bytes → Prop} {w w' : WarcRecord} {m : Nat} {p : Bytes} {f : Bytes → Bytes} {v : Option Bool}

theorem payload_det {q : Bytes} (h : w.Payload m p) (h' : w.Payload m q) : p = q := by
  have key : ∀ {h : StatusAndHeaders} {x : Bytes}, HttpHead w.block h x → w.block ≠ [] := by
    intro h x hx e
    have := hx.first
    rw [e] at this
    exact this rfl
  cases h with
  | whole h =>
    cases h' with
    | whole _ => rfl
    | http y _ g1 _ _ g4 => exact absurd h (by rintro (h | h); exact h g1; exact key g4 h)
  | http y _ g1 _ _ g4 =>
    cases h' with
    | whole h => exact absurd h (by rintro (h | h); exact h g1; exact key g4 h)
    | http y' _ _ _ _ k4 => exact (g4.det k4).2.2.2

theorem payload_of_split {hb : Bytes} (hs : w.Splits m hb p) : w.Payload m p := by
  cases hs with
  | whole hx => exact .whole hx
  | http y _ g1 g2 g3 g4 g5 =>
    have hbb : w.block = y.toBytes ++ p := by rw [g4, toBytes_headText g2.protocol.1]
    have key := httpHead_toBytes g2 p
    rw [← hbb] at key
    exact .http y p g1 g5 key.first key

theorem split_payload (h : w.Rewritable m p) : w.Payload m p := by
  obtain ⟨hb, hs⟩ := h.splits
  exact payload_of_split hs

/-- A header other than the length that is there keeps its value. -/
theorem kept_value (h : w.Rewritten f p w') {n x : Str} (n1 : PyUni.lower (lit "Content-Length") ≠ PyUni.lower n) (hx : w.value n = some x) : w'.value n = some x := by
  obtain ⟨pd, bd, e, -, -⟩ := NewHeaders.parts h.headers
  show firstValue n w'.headers = _
  rw [e, firstValue_append, firstValue_append, find_setLength n1, show firstValue n w.headers = some x from hx]
  rfl

theorem kept_block (h : w.Rewritten f p w') : w'.value (lit "WARC-Block-Digest") = w.value (lit "WARC-Block-Digest") ∨
    (w.value (lit "WARC-Block-Digest") = none ∧ w'.value (lit "WARC-Block-Digest") = some (sha1Text f w.block)) := by
  cases hv : w.value (lit "WARC-Block-Digest") with
  | none => exact .inr ⟨rfl, (NewHeaders.blockDigest h.headers).2 hv⟩
  | some x => exact .inl (kept_value h names_differ.2.1 hv)

theorem kept_payload (h : w.Rewritten f p w') : w'.value (lit "WARC-Payload-Digest") = w.value (lit "WARC-Payload-Digest") ∨
    (w.value (lit "WARC-Payload-Digest") = none ∧ w'.value (lit "WARC-Payload-Digest") = some (sha1Text f p)) := by
  cases hv : w.value (lit "WARC-Payload-Digest") with
  | none =>
    by_cases ht : w.value (lit "WARC-Type") = some (lit "warcinfo") ∨ w.value (lit "WARC-Type") = some (lit "revisit")
    · exact .inl ((NewHeaders.payloadDigest h.headers).2.2 hv ht)
    · exact .inr ⟨rfl, (NewHeaders.payloadDigest h.headers).2.1 hv (fun h => ht (.inl h)) (fun h => ht (.inr h))⟩
  | some x => exact .inl (kept_value h names_differ.2.2.1 hv)

theorem outcome_none {d : Bytes} {o : Option Bool} (h : Outcome d none o) : o = none := by cases h; rfl

theorem blockOutcome_none {d : Bytes} {o : Option Bool} (h : BlockOutcome d none o) : o = none := by
  cases h with
  | compared o _ h => exact outcome_none h
  | passed_over _ _ => rfl
  | unusable _ h => obtain ⟨_, h, _⟩ := h; cases h

/-- A rewritten record can be checked if the record could; the verdict is kept, and a record with a block that is not empty is judged,
unless it is a revisit record or says that its block digest is the empty text. -/
theorem kept_checkable (H : Hashlib.hash (lit "sha1") = some f) (hl : ∀ algo g, Hashlib.hash algo = some g → ∀ a b, (g a).length = (g b).length) [Zlib]
    (hw : w.Payload m p) (h : w.Rewritten f p w') (hc : Checkable IsCoded m w v) :
    ∃ v', Checkable IsCoded m w' v' ∧ KeptVerdict v v' ∧
      (w.value (lit "WARC-Type") ≠ some (lit "revisit") → w.block ≠ [] → w.value (lit "WARC-Block-Digest") ≠ some [] → v' ≠ none) := by
  have ht : w'.value (lit "WARC-Type") = w.value (lit "WARC-Type") :=
    Rewritten.value h (differ (by decide) (by decide) (by decide)) (differ (by decide) (by decide) (by decide)) (differ (by decide) (by decide) (by decide))
  have hg : w'.value (lit "WARC-Segment-Number") = w.value (lit "WARC-Segment-Number") :=
    Rewritten.value h (differ (by decide) (by decide) (by decide)) (differ (by decide) (by decide) (by decide)) (differ (by decide) (by decide) (by decide))
  have hu : w'.value (lit "WARC-Target-URI") = w.value (lit "WARC-Target-URI") :=
    Rewritten.value h (differ (by decide) (by decide) (by decide)) (differ (by decide) (by decide) (by decide)) (differ (by decide) (by decide) (by decide))
  have hhttp : w'.Http ↔ w.Http := by
    unfold WarcRecord.Http
    rw [ht, hu]
  have hpay : w'.Payload m p := by
    cases hw with
    | whole hx => rw [← h.block]; exact .whole (by rw [hhttp, h.block]; exact hx)
    | http y _ g1 g2 g3 g4 => exact .http y p (hhttp.2 g1) (by rw [h.block]; exact g2) (by rw [h.block]; exact g3) (by rw [h.block]; exact g4)
  have hcont : ∃ d, w'.Content IsCoded m d := by
    obtain ⟨d, hd⟩ := hc.content
    refine ⟨d, ?_⟩
    unfold WarcRecord.Content at hd ⊢
    rw [h.block, propext hhttp]
    exact hd
  obtain ⟨q, ob, op, q1, q2, q3, rfl⟩ := hc.verdict
  obtain rfl := payload_det hw q1
  have hus := hc.usable
  have hd' : w'.digests = lookedAt (w.value (lit "WARC-Type")) (w.value (lit "WARC-Segment-Number")) (w'.value (lit "WARC-Block-Digest")) (w'.value (lit "WARC-Payload-Digest")) := by
    unfold WarcRecord.digests
    rw [ht, hg]
  -- the block digest
  have hB : (w'.digests.1 = w.digests.1) ∨ (w.digests.1 = none ∧ w'.digests.1 = some (sha1Text f w.block)) := by
    rw [hd']
    unfold WarcRecord.digests lookedAt
    split
    · exact .inl rfl
    · split <;> exact kept_block h
  have hP : (w'.digests.2 = w.digests.2) ∨ (w.digests.2 = none ∧ w'.digests.2 = some (sha1Text f p)) := by
    rw [hd']
    unfold WarcRecord.digests lookedAt
    split
    · exact .inl rfl
    · split
      · exact .inl rfl
      · exact kept_payload h
  have hB' : (∀ data, ∃ x, Outcome data w'.digests.1 x) ∧ ∃ ob', BlockOutcome w'.block w'.digests.1 ob' ∧ (ob' = ob ∨ (ob = none ∧ ob' = some true)) := by
    rw [h.block]
    rcases hB with e | ⟨e1, e2⟩
    · rw [e]
      exact ⟨fun data => (hus data).1, ob, q2, .inl rfl⟩
    · rw [e2]
      rw [e1] at q2
      refine ⟨right_usable hl (sha1_right H w.block), if w.block = [] then none else some true, ?_, ?_⟩
      · by_cases h0 : w.block = []
        · rw [if_pos h0]; exact .passed_over h0 (right_known (sha1_right H w.block))
        · rw [if_neg h0]; exact .compared _ h0 (sha1_right H w.block)
      · rw [blockOutcome_none q2]
        split
        · exact .inl rfl
        · exact .inr ⟨rfl, rfl⟩
  have hP' : (∀ data, ∃ x, Outcome data w'.digests.2 x) ∧ ∃ op', Outcome p w'.digests.2 op' ∧ (op' = op ∨ (op = none ∧ op' = some true)) := by
    rcases hP with e | ⟨e1, e2⟩
    · rw [e]
      exact ⟨fun data => (hus data).2, op, q3, .inl rfl⟩
    · rw [e2]
      rw [e1] at q3
      exact ⟨right_usable hl (sha1_right H p), some true, sha1_right H p, .inr ⟨outcome_none q3, rfl⟩⟩
  obtain ⟨ub, ob', b1, b2⟩ := hB'
  obtain ⟨up, op', p1, p2⟩ := hP'
  refine ⟨overall ob' op', ⟨fun data => ⟨ub data, up data⟩, hcont, fun hx => hc.line (hhttp.1 hx), p, ob', op', hpay, b1, p1, rfl⟩, ?_, ?_⟩
  · unfold KeptVerdict overall
    rcases b2 with rfl | ⟨rfl, rfl⟩ <;> rcases p2 with rfl | ⟨rfl, rfl⟩
    · simp
    · rcases ob' with _ | _ | _ <;> simp
    · rcases op' with _ | _ | _ <;> simp
    · simp
  · intro t1 t2 t3
    have hob : ob' ≠ none := by
      intro e
      subst e
      rw [h.block] at b1
      have : ∃ c t, w'.digests.1 = some (c :: t) := by
        have : w'.digests.1 = w'.value (lit "WARC-Block-Digest") := by
          rw [hd']
          unfold lookedAt
          rw [if_neg t1]
          split <;> rfl
        rw [this]
        rcases kept_block h with e | ⟨-, e⟩
        · cases hv : w.value (lit "WARC-Block-Digest") with
          | none =>
            have := (NewHeaders.blockDigest h.headers).2 hv
            obtain ⟨t, ht⟩ := sha1Text_cons f w.block
            exact ⟨_, t, by rw [show w'.value (lit "WARC-Block-Digest") = _ from this, ht]⟩
          | some x =>
            rw [e, hv]
            cases x with
            | nil => exact absurd hv t3
            | cons c t => exact ⟨c, t, rfl⟩
        · obtain ⟨t, ht⟩ := sha1Text_cons f w.block
          exact ⟨_, t, by rw [e, ht]⟩
      obtain ⟨c, t, e⟩ := this
      rw [e] at b1
      cases b1 with
      | compared _ _ h => generalize hy : some (c :: t) = y at h; cases h <;> cases hy
      | passed_over h _ => exact t2 h
    unfold overall
    rcases ob' with _ | _ | _
    · exact absurd rfl hob
    · simp
    · split <;> simp

end

section
variable [PyUni] [Hashlib] [Zlib] {IsMember : Bytes → Bytes → Prop} {IsCoded : DType → Bytes → Bytes → Prop} {m : Nat} {f : Bytes → Bytes}

/-- The ID and the type of a record. -/
def nameOf (w : WarcRecord) : Option Str × Option Str := (w.value (lit "WARC-Record-ID"), w.value (lit "WARC-Type"))

theorem failures_append : ∀ (a b : List Print), failures (a ++ b) = failures a ++ failures b
  | [], _ => rfl
  | .file _ :: a, b => failures_append a b
  | .failure _ :: a, b => failures_append a b
  | .record _ _ _ (some _) _ :: a, b => failures_append a b
  | .record _ _ _ none _ :: a, b => by
    show _ :: failures (a ++ b) = _
    rw [failures_append a b]
    rfl

theorem unreadable_append : ∀ (a b : List Print), unreadable (a ++ b) = (unreadable a || unreadable b)
  | [], _ => rfl
  | .file _ :: a, b => unreadable_append a b
  | .failure _ :: _, _ => rfl
  | .record _ _ _ _ _ :: a, b => unreadable_append a b

theorem lines_failures {verbose : Bool} {xs : List (Located × Option Bool)} {lines : List Print} (h : CheckLines verbose xs lines) :
    failures lines = (xs.filter (fun x => x.2 = some false)).map (fun x => nameOf x.1.record) ∧ unreadable lines = false := by
  induction h with
  | nil => exact ⟨rfl, rfl⟩
  | bad x xs ps out _ _ ih =>
    refine ⟨?_, ih.2⟩
    show _ :: failures out = _
    rw [ih.1, List.filter_cons_of_pos (by simp)]
    rfl
  | quiet x v xs out hv _ _ ih => exact ⟨by rw [ih.1, List.filter_cons_of_neg (by simpa using hv)], ih.2⟩
  | note x v xs out hv _ _ ih => exact ⟨by rw [List.filter_cons_of_neg (by simpa using hv)]; exact ih.1, ih.2⟩

/-- What `check` says of one file. -/
theorem judged (L : LawfulGzip IsMember) (LC : LawfulCodecs IsCoded) {g : FileObj} {ys : List (Located × Option Bool)} {failed : Bool} (h : CheckInput L IsCoded m g ys failed) (verbose : Bool) (name : Str) :
    ∃ out, processAll verbose [(name, g)] 0 = (.ok (if failed = true ∨ ∃ y ∈ ys, y.2 = some false then 1 else 0), out) ∧
      failures out = (ys.filter (fun x => x.2 = some false)).map (fun x => nameOf x.1.record) ∧ unreadable out = failed := by
  obtain ⟨out, o1, o2⟩ := C57_check_partial L LC verbose [(name, g, ys, failed)] (by intro i hi; rw [List.mem_singleton.1 hi]; exact h)
  refine ⟨out, ?_, ?_⟩
  · rw [show processAll verbose [(name, g)] 0 = _ from o2]
    refine congrArg (fun n => (Except.ok n, out)) (ite_congr (propext ?_) (fun _ => rfl) (fun _ => rfl))
    rw [exists_cons]
    simp
  · cases o1 with
    | cons _ _ _ lines _ out' h1 h2 =>
      cases h2
      obtain ⟨k1, k2⟩ := lines_failures h1
      rw [List.append_nil]
      unfold checkReport
      rw [failures_append, unreadable_append, ← k1]
      constructor
      · cases failed <;> (split <;> simp_all [failures])
      · cases failed <;> (split <;> simp_all [unreadable])

/-- The records of the output, with the verdicts on them. -/
theorem copied_verdicts (H : Hashlib.hash (lit "sha1") = some f) (hl : ∀ algo g, Hashlib.hash algo = some g → ∀ a b, (g a).length = (g b).length) :
    ∀ (rs : List (WarcRecord × Bytes × Option Bool)) (out : List (Bytes × WarcRecord)) (locs : List Located), Copied IsMember f true (rs.map (fun r => (r.1, r.2.1))) out →
      (∀ r ∈ rs, r.1.Rewritable m r.2.1 ∧ Checkable IsCoded m r.1 r.2.2) → locs.map (·.record) = out.map (·.2) →
      ∃ zs : List (Located × Option Bool), zs.map (·.1) = locs ∧ (∀ z ∈ zs, Checkable IsCoded m z.1.record z.2) ∧
        Each (fun r z => r.1.Rewritten f r.2.1 z.1.record ∧ KeptVerdict r.2.2 z.2 ∧
          (r.1.value (lit "WARC-Type") ≠ some (lit "revisit") → r.1.block ≠ [] → r.1.value (lit "WARC-Block-Digest") ≠ some [] → z.2 ≠ none)) rs zs
  | [], [], [], _, _, _ => ⟨[], rfl, by simp, .nil⟩
  | [], _ :: _, _, h, _, _ => by cases h
  | _ :: _, [], _, h, _, _ => by cases h
  | [], [], _ :: _, _, _, h => by cases h
  | _ :: _, _ :: _, [], _, _, h => by cases h
  | r :: rs, y :: out, l :: locs, .cons h1 h2, hw, hq => by
    simp only [List.map_cons, List.cons.injEq] at hq
    obtain ⟨zs, k1, k2, k3⟩ := copied_verdicts H hl rs out locs h2 (fun r hr => hw r (List.mem_cons_of_mem _ hr)) hq.2
    obtain ⟨w1, w2⟩ := hw r (List.mem_cons_self ..)
    obtain ⟨v', c1, c2, c3⟩ := kept_checkable H hl (split_payload w1) h1.1 w2
    refine ⟨(l, v') :: zs, by rw [List.map_cons, k1], ?_, .cons ⟨by rw [show l.record = y.2 from hq.1]; exact h1.1, c2, c3⟩ k3⟩
    intro z hz
    rcases List.mem_cons.1 hz with rfl | hz
    · show Checkable IsCoded m l.record v'
      rw [hq.1]
      exact c1
    · exact k2 z hz

theorem copied_stored {rs : List (WarcRecord × Bytes)} {out : List (Bytes × WarcRecord)} (h : Copied IsMember f true rs out) : ∀ y ∈ out, y.2.Good ∧ IsMember y.1 y.2.bytes := by
  intro y hy
  obtain ⟨r, -, h1, h2⟩ := each_right h y hy
  exact ⟨h1.good, h2⟩

theorem copied_input (L : LawfulGzip IsMember) (H : Hashlib.hash (lit "sha1") = some f) (hl : ∀ algo g, Hashlib.hash algo = some g → ∀ a b, (g a).length = (g b).length)
    {rs : List (WarcRecord × Bytes × Option Bool)} (hne : rs ≠ []) (hw : ∀ r ∈ rs, r.1.Rewritable m r.2.1 ∧ Checkable IsCoded m r.1 r.2.2) {out : List (Bytes × WarcRecord)}
    (ho : Copied IsMember f true (rs.map (fun r => (r.1, r.2.1))) out) {g : FileObj} (hg : g.rest = out.flatMap (·.1)) (hr : ReadsGz g 16384 m (out.map (·.1))) :
    ∃ zs, CheckInput L IsCoded m g zs false ∧ Each (fun r z => r.1.Rewritten f r.2.1 z.1.record ∧ KeptVerdict r.2.2 z.2 ∧
          (r.1.value (lit "WARC-Type") ≠ some (lit "revisit") → r.1.block ≠ [] → r.1.value (lit "WARC-Block-Digest") ≠ some [] → z.2 ≠ none)) rs zs := by
  obtain ⟨zs, k1, k2, k3⟩ := copied_verdicts (IsCoded := IsCoded) H hl rs out (placementsGz g.origin (out.map (fun y => (y.1, y.2, none)))) ho hw
    (by rw [placementsGz_records, List.map_map]; rfl)
  refine ⟨zs, .archive g zs ?_ k2, k3⟩
  rw [k1]
  refine .gzip g _ ?_ ?_ ?_ ?_
  · intro h
    cases out with
    | cons _ _ => cases h
    | nil => cases rs with
      | nil => exact hne rfl
      | cons _ _ => cases ho
  · intro x hx
    obtain ⟨y, hy, rfl⟩ := List.mem_map.1 hx
    exact copied_stored ho y hy
  · rw [hg]
    simp only [List.flatMap, List.map_map]
    rfl
  · rw [List.map_map]
    exact hr

theorem kept_name {w w' : WarcRecord} {p : Bytes} (h : w.Rewritten f p w') : nameOf w' = nameOf w := by
  unfold nameOf
  rw [Rewritten.value h (differ (by decide) (by decide) (by decide)) (differ (by decide) (by decide) (by decide)) (differ (by decide) (by decide) (by decide)),
    Rewritten.value h (differ (by decide) (by decide) (by decide)) (differ (by decide) (by decide) (by decide)) (differ (by decide) (by decide) (by decide))]

theorem kept_failures {Q : WarcRecord × Bytes × Option Bool → Located × Option Bool → Prop} : ∀ {rs : List (WarcRecord × Bytes × Option Bool)} {zs : List (Located × Option Bool)},
    Each (fun r z => r.1.Rewritten f r.2.1 z.1.record ∧ KeptVerdict r.2.2 z.2 ∧ Q r z) rs zs →
      (zs.filter (fun x => x.2 = some false)).map (fun x => nameOf x.1.record) = (rs.filter (fun r => r.2.2 = some false)).map (fun r => nameOf r.1) ∧
      ((∃ z ∈ zs, z.2 = some false) ↔ ∃ r ∈ rs, r.2.2 = some false)
  | _, _, .nil => ⟨rfl, by simp⟩
  | r :: rs, z :: zs, .cons ⟨h1, h2, _⟩ h3 => by
    obtain ⟨k1, k2⟩ := kept_failures h3
    refine ⟨?_, by rw [exists_cons, exists_cons, k2, h2.1]⟩
    by_cases hv : r.2.2 = some false
    · rw [List.filter_cons_of_pos (by simpa using h2.1.2 hv), List.filter_cons_of_pos (by simpa using hv), List.map_cons, List.map_cons, k1, kept_name h1]
    · rw [List.filter_cons_of_neg (by simpa using fun h => hv (h2.1.1 h)), List.filter_cons_of_neg (by simpa using hv), k1]

end

section
variable [PyUni] [Hashlib] [Deflater] [Zlib] {IsMember : Bytes → Bytes → Prop} {IsCoded : DType → Bytes → Bytes → Prop}

theorem each_len {α β : Type} {R : α → β → Prop} {as : List α} {bs : List β} (h : Each R as bs) : bs.length = as.length := by
  induction h with
  | nil => rfl
  | cons _ _ ih => rw [List.length_cons, List.length_cons, ih]

/-- `check` says the same of both files: the same exit value, the same failures; both could be read. -/
def SaysTheSame (g g' : FileObj) (bad : Prop) : Prop :=
  ∀ verbose name name', ∃ n p p', processAll verbose [(name, g)] 0 = (.ok n, p) ∧ processAll verbose [(name', g')] 0 = (.ok n, p') ∧ (n = 1 ↔ bad) ∧ (n = 0 ↔ ¬ bad) ∧
    failures p' = failures p ∧ unreadable p = false ∧ unreadable p' = false

theorem says (L : LawfulGzip IsMember) (LC : LawfulCodecs IsCoded) {f : Bytes → Bytes} (H : Hashlib.hash (lit "sha1") = some f) (hl : ∀ algo g, Hashlib.hash algo = some g → ∀ a b, (g a).length = (g b).length)
    {m : Nat} {rs : List (WarcRecord × Bytes × Option Bool)} (hne : rs ≠ []) (hw : ∀ r ∈ rs, r.1.Rewritable m r.2.1 ∧ Checkable IsCoded m r.1 r.2.2) {out : List (Bytes × WarcRecord)}
    (ho : Copied IsMember f true (rs.map (fun r => (r.1, r.2.1))) out) {g g' : FileObj} {locs : List Located} (ha : Archived IsMember m g locs) (hlocs : locs.map (·.record) = rs.map (·.1))
    (hg : g'.rest = out.flatMap (·.1)) (hr : ReadsGz g' 16384 m (out.map (·.1))) : SaysTheSame g g' (∃ r ∈ rs, r.2.2 = some false) := by
  intro verbose name name'
  obtain ⟨zs, z1, z2⟩ := copied_input (IsCoded := IsCoded) L H hl hne hw ho hg hr
  obtain ⟨k1, k2⟩ := kept_failures z2
  have key : ∀ (rs : List (WarcRecord × Bytes × Option Bool)) (locs : List Located), locs.map (·.record) = rs.map (·.1) → (∀ r ∈ rs, Checkable IsCoded m r.1 r.2.2) →
      ∃ ys : List (Located × Option Bool), ys.map (·.1) = locs ∧ (∀ y ∈ ys, Checkable IsCoded m y.1.record y.2) ∧ ((∃ y ∈ ys, y.2 = some false) ↔ ∃ r ∈ rs, r.2.2 = some false) ∧
        (ys.filter (fun x => x.2 = some false)).map (fun x => nameOf x.1.record) = (rs.filter (fun r => r.2.2 = some false)).map (fun r => nameOf r.1) := by
    intro rs
    induction rs with
    | nil =>
      intro locs h _
      cases locs with
      | nil => exact ⟨[], rfl, by simp, by simp, rfl⟩
      | cons _ _ => cases h
    | cons r rs ih =>
      intro locs h hc
      cases locs with
      | nil => cases h
      | cons l locs =>
        simp only [List.map_cons, List.cons.injEq] at h
        obtain ⟨ys, y1, y2, y3, y4⟩ := ih locs h.2 (fun r hr => hc r (List.mem_cons_of_mem _ hr))
        refine ⟨(l, r.2.2) :: ys, by rw [List.map_cons, y1], ?_, by rw [exists_cons, exists_cons, y3], ?_⟩
        · intro y hy
          rcases List.mem_cons.1 hy with rfl | hy
          · show Checkable IsCoded m l.record _
            rw [h.1]
            exact hc r (List.mem_cons_self ..)
          · exact y2 y hy
        · by_cases hv : r.2.2 = some false
          · rw [List.filter_cons_of_pos (by simpa using hv), List.filter_cons_of_pos (by simpa using hv), List.map_cons, List.map_cons, y4]
            show nameOf l.record :: _ = _
            rw [h.1]
          · rw [List.filter_cons_of_neg (by simpa using hv), List.filter_cons_of_neg (by simpa using hv), y4]
  obtain ⟨ys, y1, y2, y3, y4⟩ := key rs locs hlocs (fun r hr => (hw r hr).2)
  obtain ⟨p, p1, p2, p3⟩ := judged L LC (.archive g ys (by rw [y1]; exact ha) y2) verbose name
  obtain ⟨p', q1, q2, q3⟩ := judged L LC z1 verbose name'
  refine ⟨if ∃ r ∈ rs, r.2.2 = some false then 1 else 0, p, p', ?_, ?_, ?_, ?_, by rw [q2, p2, k1, y4], p3, q3⟩
  · rw [p1]
    refine congrArg (fun n => (Except.ok n, p)) (ite_congr (propext ?_) (fun _ => rfl) (fun _ => rfl))
    rw [y3]; simp
  · rw [q1]
    refine congrArg (fun n => (Except.ok n, p')) (ite_congr (propext ?_) (fun _ => rfl) (fun _ => rfl))
    rw [k2]; simp
  · split <;> simp_all
  · split <;> simp_all

/-- C83: a file is recompressed, and then `check` says the same of the new file as of the old one: the exit value is the same, the same records are
reported as failures, in the same order.
Partial: records that can be rewritten without loss (`Rewritable`), with digests that are texts of digests (`Checkable`); with HTTP headers, members that are decompressed steadily (`ReadsGz`). -/
theorem C83_plain_partial (L : LawfulGzip IsMember) (D : LawfulDeflater IsMember) (LC : LawfulCodecs IsCoded) {f : Bytes → Bytes} (H : Hashlib.hash (lit "sha1") = some f)
    (hl : ∀ algo g, Hashlib.hash algo = some g → ∀ a b, (g a).length = (g b).length) {c : BuilderCfg} (hf : c.filter = some) (hc : c.gzip = true)
    {m : Nat} {rs : List (WarcRecord × Bytes × Option Bool)} (hne : rs ≠ []) (hw : ∀ r ∈ rs, r.1.Rewritable m r.2.1 ∧ Checkable IsCoded m r.1 r.2.2)
    {g : FileObj} (hg : g.rest = rs.flatMap (·.1.bytes)) (hr : Reads g 16384 m) (ids : Nat → Str) (again : List Nat) :
    ∃ zs : List Bytes, zs.length = rs.length ∧ Recompressor.recompress c ids g again = (.noErrors rs.length, ({} : OutFile).extended zs.flatten) ∧
      ∀ {g' : FileObj}, g'.rest = zs.flatten → ReadsGz g' 16384 m zs → SaysTheSame g g' (∃ r ∈ rs, r.2.2 = some false) := by
  obtain ⟨out, o1, o2⟩ := C60_plain L D H hf hc (xs := rs.map (fun r => (r.1, r.2.1))) (m := m)
    (by intro x hx; obtain ⟨r, hr, rfl⟩ := List.mem_map.1 hx; exact (hw r hr).1) (by rw [hg, List.flatMap_map]) hr ids again
  refine ⟨out.map (·.1), ?_, by rw [o2, List.length_map]; rfl, ?_⟩
  · have := each_len o1
    rw [List.length_map] at this
    rw [List.length_map, this]
  · intro g' h1 h2
    refine says L LC H hl hne hw o1 (.plain g (rs.map (fun r => (r.1, none))) ?_ ?_ hr) ?_ (by rw [h1]; rfl) h2
    · intro x hx
      obtain ⟨r, hr, rfl⟩ := List.mem_map.1 hx
      exact (hw r hr).1.good
    · rw [hg, List.flatMap_map]
    · rw [placements_records, List.map_map]; rfl

/-- C83, for a file in which each record is a gzip member.  Partial as `C83_plain_partial`. -/
theorem C83_gzip_partial (L : LawfulGzip IsMember) (D : LawfulDeflater IsMember) (LC : LawfulCodecs IsCoded) {f : Bytes → Bytes} (H : Hashlib.hash (lit "sha1") = some f)
    (hl : ∀ algo g, Hashlib.hash algo = some g → ∀ a b, (g a).length = (g b).length) {c : BuilderCfg} (hf : c.filter = some) (hc : c.gzip = true)
    {m : Nat} {rs : List (WarcRecord × Bytes × Option Bool)} (hne : rs ≠ []) (hw : ∀ r ∈ rs, r.1.Rewritable m r.2.1 ∧ Checkable IsCoded m r.1 r.2.2)
    {ms : List Bytes} (hz : Each (fun r z => IsMember z r.1.bytes) rs ms) {g : FileObj} (hg : g.rest = ms.flatten) (hr : ReadsGz g 16384 m ms) (ids : Nat → Str) (again : List Nat) :
    ∃ zs : List Bytes, zs.length = rs.length ∧ Recompressor.recompress c ids g again = (.noErrors rs.length, ({} : OutFile).extended zs.flatten) ∧
      ∀ {g' : FileObj}, g'.rest = zs.flatten → ReadsGz g' 16384 m zs → SaysTheSame g g' (∃ r ∈ rs, r.2.2 = some false) := by
  have hz' : ∀ {rs : List (WarcRecord × Bytes × Option Bool)} {ms : List Bytes}, Each (fun r z => IsMember z r.1.bytes) rs ms →
      Each (fun x z => IsMember z x.1.bytes) (rs.map (fun r => (r.1, r.2.1))) ms ∧
      ∃ xs : List (Bytes × WarcRecord × Option StatusAndHeaders), xs.map (·.1) = ms ∧ xs.map (·.2.1) = rs.map (·.1) ∧ ∀ x ∈ xs, IsMember x.1 x.2.1.bytes := by
    intro rs ms h
    induction h with
    | nil => exact ⟨.nil, [], rfl, rfl, by simp⟩
    | @cons r z rs ms h1 h2 ih =>
      obtain ⟨a, xs, b1, b2, b3⟩ := ih
      refine ⟨.cons h1 a, (z, r.1, none) :: xs, by rw [List.map_cons, b1], by rw [List.map_cons, b2, List.map_cons], ?_⟩
      intro x hx
      rcases List.mem_cons.1 hx with rfl | hx
      · exact h1
      · exact b3 x hx
  obtain ⟨hz1, xs, x1, x2, x3⟩ := hz' hz
  obtain ⟨out, o1, o2⟩ := C60_gzip L D H hf hc (xs := rs.map (fun r => (r.1, r.2.1))) (m := m) (by simpa using hne)
    (by intro x hx; obtain ⟨r, hr, rfl⟩ := List.mem_map.1 hx; exact (hw r hr).1) hz1 hg hr ids again
  refine ⟨out.map (·.1), ?_, by rw [o2, List.length_map]; rfl, ?_⟩
  · have := each_len o1
    rw [List.length_map] at this
    rw [List.length_map, this]
  · intro g' h1 h2
    refine says L LC H hl hne hw o1 (.gzip g xs ?_ ?_ ?_ (by rw [x1]; exact hr)) ?_ (by rw [h1]; rfl) h2
    · rintro rfl
      cases rs with
      | nil => exact hne rfl
      | cons _ _ => cases x2
    · intro x hx
      refine ⟨?_, x3 x hx⟩
      have : x.2.1 ∈ rs.map (·.1) := by rw [← x2]; exact List.mem_map.2 ⟨x, hx, rfl⟩
      obtain ⟨r, hr, e⟩ := List.mem_map.1 this
      rw [← e]
      exact (hw r hr).1.good
    · rw [hg, ← x1]; rfl
    · rw [placementsGz_records, x2]

/-- C83, for a file that is one gzip member with more than one record: `check` cannot read it, and exits with 1; of the new file it says what is right.
Partial as `C83_plain_partial`; also, the member is decompressed steadily if there are HTTP headers. -/
theorem C83_one_member_partial (L : LawfulGzip IsMember) (D : LawfulDeflater IsMember) (LC : LawfulCodecs IsCoded) {f : Bytes → Bytes} (H : Hashlib.hash (lit "sha1") = some f)
    (hl : ∀ algo g, Hashlib.hash algo = some g → ∀ a b, (g a).length = (g b).length) {c : BuilderCfg} (hf : c.filter = some) (hc : c.gzip = true)
    {m : Nat} {rs : List (WarcRecord × Bytes × Option Bool)} (h2 : 2 ≤ rs.length) (hw : ∀ r ∈ rs, r.1.Rewritable m r.2.1 ∧ Checkable IsCoded m r.1 r.2.2) (hm : m ≤ 16384)
    {g : FileObj} (hp : g.pos = 0) (hs : g.seekable = true) (hz : IsMember g.rest (rs.flatMap (·.1.bytes))) (hr : ReadsGz g 16384 m [g.rest]) (ids : Nat → Str) (again : List Nat) :
    (∀ verbose name, ∃ p, processAll verbose [(name, g)] 0 = (.ok 1, p) ∧ unreadable p = true) ∧
    ∃ zs : List Bytes, zs.length = rs.length ∧ Recompressor.recompress c ids g again = (.fixed rs.length, ({} : OutFile).extended zs.flatten) ∧
      ∀ {g' : FileObj}, g'.rest = zs.flatten → ReadsGz g' 16384 m zs → ∀ verbose name, ∃ p, processAll verbose [(name, g')] 0 = (.ok (if ∃ r ∈ rs, r.2.2 = some false then 1 else 0), p) ∧
        failures p = (rs.filter (fun r => r.2.2 = some false)).map (fun r => nameOf r.1) ∧ unreadable p = false := by
  have hne : rs ≠ [] := by rintro rfl; simp at h2
  constructor
  · intro verbose name
    match rs, h2 with
    | r :: r' :: rs, _ =>
      have hin : CheckInput L IsCoded m g [(⟨r.1, g.origin, 0, none⟩, r.2.2)] true := by
        refine .member g r.1 r'.1 (rs.map (·.1)) r.2.2 ?_ ?_ hr (hw r (by simp)).2
        · intro x hx
          have : x ∈ (r :: r' :: rs).map (·.1) := hx
          obtain ⟨y, hy, rfl⟩ := List.mem_map.1 this
          exact ⟨(hw y hy).1.good, (hw y hy).2.usable⟩
        · have : (r.1 :: r'.1 :: rs.map (·.1)).flatMap WarcRecord.bytes = (r :: r' :: rs).flatMap (·.1.bytes) := by
            simp only [List.flatMap_cons, List.flatMap_map]
          rw [this]; exact hz
      obtain ⟨p, p1, p2, p3⟩ := judged L LC hin verbose name
      exact ⟨p, by rw [p1, if_pos (.inl rfl)], p3⟩
  · obtain ⟨out, o1, o2⟩ := C60_one_member_partial L D H hf hc (xs := rs.map (fun r => (r.1, r.2.1))) (m := m) (by simpa using h2)
      (by intro x hx; obtain ⟨r, hr, rfl⟩ := List.mem_map.1 hx; exact (hw r hr).1) hm hp hs (by rw [List.flatMap_map]; exact hz) hr ids again
    refine ⟨out.map (·.1), ?_, by rw [o2, List.length_map]; rfl, ?_⟩
    · have := each_len o1
      rw [List.length_map] at this
      rw [List.length_map, this]
    · intro g' h1 h2 verbose name
      obtain ⟨zs, z1, z2⟩ := copied_input (IsCoded := IsCoded) L H hl hne hw o1 (g := g') (by rw [h1]; rfl) h2
      obtain ⟨k1, k2⟩ := kept_failures z2
      obtain ⟨p', q1, q2, q3⟩ := judged L LC z1 verbose name
      refine ⟨p', ?_, by rw [q2, k1], q3⟩
      rw [q1]
      refine congrArg (fun n => (Except.ok n, p')) (ite_congr (propext ?_) (fun _ => rfl) (fun _ => rfl))
      rw [k2]; simp

open Cli in
/-- C83 at the command line: `warcio recompress a o` on an uncompressed file, and then `warcio check o` exits as `warcio check a` does.  Partial as `C83_plain_partial`. -/
theorem C83_cli_partial (L : LawfulGzip IsMember) (D : LawfulDeflater IsMember) (LC : LawfulCodecs IsCoded) {f : Bytes → Bytes} (H : Hashlib.hash (lit "sha1") = some f)
    (hl : ∀ algo g, Hashlib.hash algo = some g → ∀ a b, (g a).length = (g b).length) {m : Nat} (hm : m ≤ 16384) {rs : List (WarcRecord × Bytes × Option Bool)} (hne : rs ≠ [])
    (hw : ∀ r ∈ rs, r.1.Rewritable m r.2.1 ∧ Checkable IsCoded m r.1 r.2.2) (ids : Nat → Str) {a o : Str} (ha : FileName a) (ho : FileName o) (hao : a ≠ o) {w : World} (hwr : w.writable o = true)
    (hb : w.files a = some (rs.flatMap (·.1.bytes))) :
    let (x, w') := run ids (.recompress a o false) w
    x = .done ∧ ∃ zs : List Bytes, zs.length = rs.length ∧ w'.files o = some zs.flatten ∧
      (m = 0 ∨ (∀ z ∈ zs, Steady 16384 m z) → ∀ v, ∃ n, (run ids (.check [a] v) w).1 = .exit n ∧ (run ids (.check [o] v) w').1 = .exit n ∧ (n = 0 ↔ ∀ r ∈ rs, r.2.2 ≠ some false)) := by
  obtain ⟨zs, z1, z2, z3⟩ := C83_plain_partial L D LC H hl (c := { gzip := true }) rfl rfl hne hw (g := { content := rs.flatMap (·.1.bytes) }) (by simp [FileObj.rest])
    ⟨by decide, by simp, .inr ⟨rfl, hm⟩⟩ ids []
  have key := C82_recompress ids ha ho hao hwr hb
  rw [z2] at key
  dsimp only at key
  generalize run ids (.recompress a o false) w = y at key ⊢
  obtain ⟨x, w'⟩ := y
  dsimp only at key ⊢
  have hc : w'.files o = some zs.flatten := by rw [key.1]; rfl
  refine ⟨congrArg Prod.fst key.2, zs, z1, hc, ?_⟩
  intro hz v
  obtain ⟨n, p, p', n1, n2, -, n4, -⟩ := z3 (g' := { content := zs.flatten }) (by simp [FileObj.rest]) ⟨by decide, hz.imp id (fun h => ⟨rfl, h⟩)⟩ v a o
  have c1 := C82_check ids (w := w) (fs := [(a, rs.flatMap (·.1.bytes))]) (by intro f hf; rw [List.mem_singleton.1 hf]; exact ⟨ha, hb⟩) v
  have c2 := C82_check ids (w := w') (fs := [(o, zs.flatten)]) (by intro f hf; rw [List.mem_singleton.1 hf]; exact ⟨ho, hc⟩) v
  simp only [List.map_cons, List.map_nil] at c1 c2
  rw [n1] at c1
  rw [n2] at c2
  exact ⟨n, by rw [c1], by rw [c2], n4.trans ⟨fun h r hr e => h ⟨r, hr, e⟩, fun h ⟨r, hr, e⟩ => h r hr e⟩⟩

end

/-! ## The hypotheses are met, and the claim that fails -/

section
open Toy Recompressor

theorem within_mono {m n : Nat} {b : Bytes} (h : HeadWithin m b) (hm : m ≤ n) : HeadWithin n b := by
  induction h with
  | eof => exact .eof
  | blank h1 h2 h3 => exact .blank h1 (Nat.le_trans h2 hm) h3
  | line h1 h2 _ ih => exact .line h1 (Nat.le_trans h2 hm) ih

theorem rewritable_mono {w : WarcRecord} {m n : Nat} {p : Bytes} (h : w.Rewritable m p) (hm : m ≤ n) : w.Rewritable n p where
  good := h.good
  headers := h.headers
  oneLength := h.oneLength
  oneType := h.oneType
  tidy := h.tidy
  splits := by
    obtain ⟨hb, hs⟩ := h.splits
    cases hs with
    | whole hx => exact ⟨_, .whole hx⟩
    | http y _ g1 g2 g3 g4 g5 => exact ⟨_, .http y p g1 g2 g3 g4 (within_mono g5 hm)⟩
  revisit := h.revisit

theorem exSum_rewritable {d : Str} (hd : GoodHeader (lit "WARC-Block-Digest", d)) (hg : (exSum d).Good) (m : Nat) : (exSum d).Rewritable m (exSum d).block where
  good := hg
  headers := by
    intro h hh
    simp only [exSum, List.mem_cons, List.not_mem_nil, or_false] at hh
    rcases hh with rfl | rfl | rfl
    · exact ⟨⟨by decide, by decide, by decide, by decide, by decide⟩, by decide, by decide⟩
    · exact ⟨⟨by decide, by decide, by decide, by decide, by decide⟩, by decide, by decide⟩
    · exact hd
  oneLength := by show _ ≤ 1; exact (by decide : (1 : Nat) ≤ 1)
  oneType := by show _ ≤ 1; exact (by decide : (0 : Nat) ≤ 1)
  tidy := by
    intro u hu
    have : (exSum d).value (lit "WARC-Target-URI") = none := rfl
    rw [this] at hu; cases hu
  splits := ⟨[], .whole (.inl (exSum_not_http d))⟩
  revisit := fun h => absurd h (by show ¬ (some (lit "metadata") = some _); decide)

theorem exHttp_checkable : Checkable toyCoded 64 exHttp none where
  usable := fun _ => ⟨⟨none, .absent⟩, none, .absent⟩
  content := ⟨_, .http exHttpHead (utf8Encode (lit "xy")) (utf8Encode (lit "xy")) exHttp_http
    (.line (by decide +kernel) (by decide +kernel) (.line (by decide +kernel) (by decide +kernel) (.blank (by decide +kernel) (by decide +kernel) (by decide +kernel)))) (by decide +kernel)
    ⟨by decide +kernel, by decide +kernel, by decide +kernel, by decide +kernel, by decide +kernel⟩ (.inl (by decide)) (.plain none _ _ (by decide +kernel) (by
      have : firstValue (lit "content-encoding") exHttpHead.headers = none := by decide +kernel
      rw [this]; exact .none) (.none _))⟩
  line := fun _ => Nat.le_refl _
  verdict := ⟨_, none, none, split_payload (rewritable_mono exHttp_rewritable (by decide)), .compared _ (by decide +kernel) .absent, .absent, rfl⟩

/-- Records with a right digest, a wrong one, and none. -/
def exChecked : List (WarcRecord × Bytes × Option Bool) :=
  [(exSum exRight, utf8Encode (lit "ab"), some true), (exHttp, utf8Encode (lit "xy"), none), (exSum exWrong, utf8Encode (lit "ab"), some false), (exInfo, exInfo.block, none)]

/-- The hypotheses of `C83_plain_partial`, `C83_gzip_partial`, `C83_one_member_partial` and `C83_cli_partial`. -/
example : (∀ r ∈ exChecked, r.1.Rewritable 64 r.2.1 ∧ Checkable toyCoded 64 r.1 r.2.2) ∧ Reads { content := exChecked.flatMap (·.1.bytes) } 16384 64 ∧
    Each (fun r z => IsMember z r.1.bytes) exChecked (exChecked.map (fun r => compress r.1.bytes)) ∧
    ReadsGz { content := exChecked.flatMap (fun r => compress r.1.bytes) } 16384 64 (exChecked.map (fun r => compress r.1.bytes)) ∧
    IsMember (compress (exChecked.flatMap (·.1.bytes))) (exChecked.flatMap (·.1.bytes)) := by
  refine ⟨?_, ⟨by decide, by simp, .inr ⟨rfl, by decide⟩⟩, .cons rfl (.cons rfl (.cons rfl (.cons rfl .nil))), (.fit (by decide) rfl (by decide +kernel)), rfl⟩
  intro r hr
  simp only [exChecked, List.mem_cons, List.not_mem_nil, or_false] at hr
  rcases hr with rfl | rfl | rfl | rfl
  · exact ⟨exSum_rewritable ⟨⟨by decide, by decide, by decide, by decide, by decide⟩, by decide, by decide⟩ exRight_good 64, exRight_checkable 64⟩
  · exact ⟨rewritable_mono exHttp_rewritable (by decide), exHttp_checkable⟩
  · exact ⟨exSum_rewritable ⟨⟨by decide, by decide, by decide, by decide, by decide⟩, by decide, by decide⟩ exWrong_good 64, exWrong_checkable 64⟩
  · exact ⟨exInfo_rewritable 64, exInfo_checkable 64⟩

/-- What the commands do with a record without digests and one with a wrong digest: one failure, before and after. -/
example : (processAll false [(lit "a", { content := [exHttp, exSum exWrong].flatMap WarcRecord.bytes })] 0).1 = .ok 1 ∧
    (let r := recompress {} (fun _ => []) { content := [exHttp, exSum exWrong].flatMap WarcRecord.bytes } []
     (r.1, failures (processAll true [(lit "b", { content := r.2.content })] 0).2) = (.noErrors 2, [(none, some (lit "metadata"))])) := by
  decide +kernel

/-- A response with a right block digest, and a line `A:b` in its HTTP headers. -/
def exClose : Bytes := utf8Encode (lit
  "WARC/1.0\r\nWARC-Type: response\r\nWARC-Target-URI: http://x/\r\nWARC-Block-Digest: sha1:DJ7H47T6PZ7H47T6PZ7H47T6PZ7H47T6\r\nContent-Length: 26\r\n\r\nHTTP/1.1 200 OK\r\nA:b\r\n\r\nxy\r\n\r\n")

/-- C83 fails for HTTP headers that are not in the form in which they are written: `check` finds nothing wrong with the file, `recompress` reports no errors, and
then `check` finds a failure. -/
theorem C83_spoilt : (processAll false [(lit "a", { content := exClose })] 0).1 = .ok 0 ∧
    (let r := recompress {} (fun _ => []) { content := exClose } []
     r.1 = .noErrors 1 ∧ (processAll false [(lit "b", { content := r.2.content })] 0).1 = .ok 1 ∧
       failures (processAll false [(lit "b", { content := r.2.content })] 0).2 = [(none, some (lit "response"))]) := by
  decide +kernel

end

end Warcio.Props
