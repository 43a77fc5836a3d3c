import Verif.Spec.Ident
import Verif.Props.CopyParts

/-!
# C101: the identifiers of converted ARC records
-/

set_option linter.unusedSectionVars false

namespace Warcio.Props

open Warcio ArchiveIter Loader

section
variable [PyUni] {σ : Type} [PyStream σ]

theorem parseArc_id {o : LoadOpts} (ho : o.arc2warc = true) {s s' : σ} {line : Option Line} {h : StatusAndHeaders} (hp : parseArc o s line = (.ok h, s')) :
    ∃ t hs, h.headers = (lit "WARC-Type", t) :: (lit "WARC-Record-ID", o.newId) :: hs := by
  have key : ∀ {full : Str} {s : σ}, parseArcFrom o full s = (.ok h, s') → ∃ t hs, h.headers = (lit "WARC-Type", t) :: (lit "WARC-Record-ID", o.newId) :: hs := by
    intro full s hp
    unfold parseArcFrom at hp
    split at hp
    · cases hp
    · dsimp only at hp
      split at hp
      · cases hp
      · split at hp
        · cases hp
        · split at hp
          · cases hp
          · rename_i hh
            cases hp
            unfold arcHeaders at hh
            rw [if_pos ho] at hh
            dsimp only at hh
            split at hh
            · cases hh; exact ⟨_, _, rfl⟩
            · cases hh
  unfold parseArc at hp
  split at hp
  · exact key hp
  · split at hp
    · exact key hp
    · cases hp

theorem detectArc_id {o : LoadOpts} (ho : o.arc2warc = true) {s s' : σ} {line : Option Line} {f : HeadFormat} {h : StatusAndHeaders} (hp : detectArc o s line = (.ok (f, h), s')) :
    f = .arc2warc ∧ ∃ t hs, h.headers = (lit "WARC-Type", t) :: (lit "WARC-Record-ID", o.newId) :: hs := by
  unfold detectArc at hp
  split at hp
  · rename_i hk
    cases hp
    exact ⟨if_pos ho, parseArc_id ho hk⟩
  · cases hp
  · cases hp

theorem splitPrefix_starts {key : Str} : ∀ {ps : List Str} {x : Str × Str}, HeaderParser.splitPrefix key ps = some x → ∃ v ∈ ps, v <+: PyUni.upper key
  | [], _, h => by cases h
  | p :: ps, x, h => by
    unfold HeaderParser.splitPrefix at h
    split at h
    · rename_i hs
      exact ⟨p, by simp, by simpa [startsWith] using hs⟩
    · obtain ⟨v, h1, h2⟩ := splitPrefix_starts h
      exact ⟨v, by simp [h1], h2⟩

theorem detect_id {o : LoadOpts} (ho : o.arc2warc = true) {data left : Bytes} {f : HeadFormat} {h : StatusAndHeaders} (hp : detectType o data none = (.ok (f, h), left)) (hw : ¬ WarcStart data) :
    f = .arc2warc ∧ ∃ t hs, h.headers = (lit "WARC-Type", t) :: (lit "WARC-Record-ID", o.newId) :: hs := by
  unfold detectType at hp
  split at hp
  · exact detectArc_id ho hp
  · split at hp
    · rename_i hk
      exfalso
      apply hw
      have e : PyStream.readline data none = (.ok (takeLine data), data.drop (takeLine data).length) := by
        simp [PyStream.readline, askLen]
      unfold HeaderParser.parse at hk
      simp only [e] at hk
      unfold HeaderParser.parseFrom at hk
      split at hk
      · cases hk
      · split at hk
        · rename_i h0
          exact .inl (by simpa [lineText] using h0)
        · split at hk
          · cases hk
          · rename_i hps
            right
            unfold HeaderParser.protocolStatus at hps
            split at hps
            · split at hps
              · rename_i hsp
                exact splitPrefix_starts hsp
              · cases hps
            · rename_i hv
              exact absurd rfl hv
    · split at hp
      · cases hp
      · exact detectArc_id ho hp
    · cases hp

theorem shows_id [Hashlib] {o : LoadOpts} (ho : o.arc2warc = true) {p : Portion} {rec : Record Unit} (h : p.Shows o rec) (hw : ¬ WarcStart p.all) :
    idOf rec.recHeaders.headers = some o.newId := by
  obtain ⟨f, hd, h1, -, -, h2, -⟩ := h.head
  obtain ⟨rfl, t, hs, k⟩ := detect_id ho h1 hw
  unfold idOf
  rw [h2, firstValue_eq]
  have e : (fields .arc2warc hd).headers = (ensureTargetUri hd).2 := rfl
  rw [e]
  have := ensureTargetUri_other hd (m := lit "WARC-Record-ID") (differ (by decide) (by decide) (by decide))
  unfold StatusAndHeaders.getHeader at this
  rw [this, k, StatusAndHeaders.findHeader, if_neg, StatusAndHeaders.findHeader, if_pos (StatusAndHeaders.nameEq_self _ _)]
  rw [StatusAndHeaders.nameEq_other (n := lit "WARC-Type") (differ (by decide) (by decide) (by decide)) (StatusAndHeaders.nameEq_self _ _)]
  decide

end

section
variable [Zlib] [Hashlib] [PyUni] {IsMember : Bytes → Bytes → Prop}

theorem parts_ids {io : IterOpts} (ho : io.arc2warc = true) {m n : Nat} {kf : Option Format} {off : Int} {ws : List (Int × Bytes)} {data : Bytes} {plan : List (List UserOp)} {steps : List Step}
    (h : Parts io m n kf off ws data plan steps) : ∀ {k : Nat} {rec : Record Unit} {vs : List (Except PyErr UserVal)}, steps[k]? = some (.ok (some rec, vs)) →
      ∃ pre p, data = pre ++ Portion.all p ∧ p.Shows (io.load kf (io.ids (n + k))) rec ∧ (WarcStart p.all ∨ idOf rec.recHeaders.headers = some (io.ids (n + k))) := by
  have none : ∀ {e : PyErr} {plan : List (List UserOp)} {k : Nat} {rec : Record Unit} {vs : List (Except PyErr UserVal)},
      ((.error e : Step) :: plan.map (fun _ => (.error .stopIteration : Step)))[k]? = some (.ok (some rec, vs)) → False := by
    intro e plan k rec vs h
    have := List.mem_of_getElem? h
    simp at this
  induction h with
  | enough => intro k rec vs h; simp at h
  | record n kf off ws p ops plan rec left vs steps h1 h1' h2 h3 h4 h5 ih =>
    intro k rec' vs' hk
    cases k with
    | zero =>
      simp only [List.getElem?_cons_zero, Option.some.injEq, Except.ok.injEq, Prod.mk.injEq] at hk
      obtain ⟨rfl, rfl⟩ := hk
      refine ⟨[], p, rfl, h1, ?_⟩
      by_cases hw : WarcStart p.all
      · exact .inl hw
      · exact .inr (shows_id ho h1 hw)
    | succ k =>
      rw [List.getElem?_cons_succ] at hk
      obtain ⟨pre, q, q1, q2, q3⟩ := ih hk
      rw [if_pos ho] at q2
      have e : n + 1 + k = n + (k + 1) := by omega
      rw [e] at q2 q3
      refine ⟨p.bytes ++ skipped p.tail ++ pre, q, ?_, q2, q3⟩
      rw [List.append_assoc, ← q1, List.append_assoc, skipped_append]
      rfl
  | broken => intro k rec vs h; exact (none h).elim
  | over => intro k rec vs h; exact (none h).elim

/-- C101: in an iteration with `arc2warc` over any uncompressed file, the record number `k` is read from some place of the file; unless a WARC record begins there, its identifier is the `k`-th that is handed out. -/
theorem C101_ids (L : LawfulGzip IsMember) {f : FileObj} {bs : Nat} (h : Uncompressed f bs) {io : IterOpts} (ho : io.arc2warc = true) (kf : Option Format) :
    ∃ it, openArchive f io bs kf = .ok it ∧ ∀ plan, PlanOk plan → ∀ k rec vs, (iterate it plan)[k]? = some (.ok (some rec, vs)) →
      ∃ pre p, f.rest = pre ++ Portion.all p ∧ p.Shows (io.load kf (io.ids k)) rec ∧ (WarcStart p.all ∨ idOf rec.recHeaders.headers = some (io.ids k)) := by
  obtain ⟨it, k1, k2⟩ := C87_parts L h (m := 0) (.inl rfl) io kf
  refine ⟨it, k1, fun plan hp k rec vs hk => ?_⟩
  have := parts_ids ho (k2 plan hp) hk
  simpa only [Nat.zero_add] using this

/-- C101: if no identifier is handed out twice, then no two records that are made from ARC records have the same one: of two records with the same identifier, one is a WARC record in the file. -/
theorem C101_distinct (L : LawfulGzip IsMember) {f : FileObj} {bs : Nat} (h : Uncompressed f bs) {io : IterOpts} (ho : io.arc2warc = true) (hi : ∀ i j, io.ids i = io.ids j → i = j) (kf : Option Format) :
    ∃ it, openArchive f io bs kf = .ok it ∧ ∀ plan, PlanOk plan → ∀ i j rec vs rec' vs', i ≠ j → (iterate it plan)[i]? = some (.ok (some rec, vs)) → (iterate it plan)[j]? = some (.ok (some rec', vs')) →
      idOf rec.recHeaders.headers ≠ idOf rec'.recHeaders.headers ∨
      ∃ pre p, f.rest = pre ++ Portion.all p ∧ WarcStart p.all ∧ (p.Shows (io.load kf (io.ids i)) rec ∨ p.Shows (io.load kf (io.ids j)) rec') := by
  obtain ⟨it, k1, k2⟩ := C101_ids L h ho kf
  refine ⟨it, k1, fun plan hp i j rec vs rec' vs' hij h1 h2 => ?_⟩
  obtain ⟨pre, p, p1, p2, p3⟩ := k2 plan hp i rec vs h1
  obtain ⟨pre', p', q1, q2, q3⟩ := k2 plan hp j rec' vs' h2
  rcases p3 with p3 | p3
  · exact .inr ⟨pre, p, p1, p3, .inl p2⟩
  · rcases q3 with q3 | q3
    · exact .inr ⟨pre', p', q1, q3, .inr q2⟩
    · left
      rw [p3, q3]
      exact fun e => hij (hi i j (Option.some.inj e))

theorem idOf_without (hs : List (Str × Str)) : idOf (without ownNames hs) = idOf hs := by
  unfold idOf firstValue without
  rw [List.find?_filter]
  congr 2
  funext x
  by_cases hx : PyUni.lower x.1 = PyUni.lower (lit "WARC-Record-ID")
  · have n : ∀ m ∈ ownNames, PyUni.lower (lit "WARC-Record-ID") ≠ PyUni.lower m := by
      intro m hm
      simp only [ownNames, List.mem_cons, List.not_mem_nil, or_false] at hm
      rcases hm with rfl | rfl | rfl | rfl <;> exact differ (by decide) (by decide) (by decide)
    simp only [hx, beq_self_eq_true]
    simp only [decide_eq_true_eq, List.all_eq_true, bne_iff_ne]
    simpa using n
  · have : (PyUni.lower x.1 == PyUni.lower (lit "WARC-Record-ID")) = false := by simpa using hx
    simp [this]

theorem copied_ids {io : IterOpts} (ho : io.arc2warc = true) {sha : Bytes → Bytes} {flt : Str × Str → Option (Str × Str)} {m n : Nat} {data : Bytes} {x : Except PyErr Unit} {bs : List Bytes}
    (h : CopiedParts io sha flt m n data x bs) : ∀ {k : Nat} {b : Bytes}, bs[k]? = some b →
      ∃ pre p rec left hb hs, data = pre ++ Portion.all p ∧ p.Shows (io.load none (io.ids (n + k))) rec ∧ CopiedRecord sha flt rec left hb hs b ∧ (WarcStart p.all ∨ idOf hs = some (io.ids (n + k))) := by
  induction h with
  | over => intro k b h; simp at h
  | stuck => intro k b h; simp at h
  | record n p rec left hb hs b x bs h1 h2 h3 h4 h5 h6 ih =>
    intro k b' hk
    cases k with
    | zero =>
      simp only [List.getElem?_cons_zero, Option.some.injEq] at hk
      subst hk
      refine ⟨[], p, rec, left, hb, hs, rfl, h1, h5, ?_⟩
      by_cases hw : WarcStart p.all
      · exact .inl hw
      · right
        rw [← idOf_without, h5.others, idOf_without]
        exact shows_id ho h1 hw
    | succ k =>
      rw [List.getElem?_cons_succ] at hk
      obtain ⟨pre, q, rec', left', hb', hs', q1, q2, q3, q4⟩ := ih hk
      have e : n + 1 + k = n + (k + 1) := by omega
      rw [e] at q2 q4
      refine ⟨p.bytes ++ skipped p.tail ++ pre, q, rec', left', hb', hs', ?_, q2, q3, q4⟩
      rw [List.append_assoc, ← q1, List.append_assoc, skipped_append]
      rfl

open Recompressor in
/-- C101 for `_load_and_write`, which `recompress` uses: the record number `k` of the copy is a copy of a record of the file, and unless that is a WARC record, it is written with the `k`-th identifier that is handed out. -/
theorem C101_copy [Deflater] (L : LawfulGzip IsMember) (D : LawfulDeflater IsMember) {sha : Bytes → Bytes} (H : Hashlib.hash (lit "sha1") = some sha) {f : FileObj} (h : Uncompressed f 16384) (c : BuilderCfg) (ids : Nat → Str) :
    ∃ (x : Except PyErr Unit) (rs : List Bytes) (z : Bytes), loadAndWrite c ids f = (x.map (fun _ => rs.length), ({} : OutFile).extended z) ∧ (if c.gzip then ∃ zs, Each IsMember zs rs ∧ z = zs.flatten else z = rs.flatten) ∧
      ∀ k b, rs[k]? = some b → ∃ pre p rec left hb hs, f.rest = pre ++ Portion.all p ∧ p.Shows (({ noRecordParse := false, arc2warc := true, verifyHttp := false, ids := ids } : IterOpts).load none (ids k)) rec ∧ CopiedRecord sha c.filter rec left hb hs b ∧
        (WarcStart p.all ∨ idOf hs = some (ids k)) := by
  obtain ⟨x, rs, z, h1, h2, h3⟩ := C91_copy L D H h (m := 0) (.inl rfl) c ids
  refine ⟨x, rs, z, h1, h3, fun k b hk => ?_⟩
  have := copied_ids rfl h2 hk
  simpa only [Nat.zero_add] using this

end

open Toy

/-- An ARC file with two pages behind a WARC record that has an identifier. -/
def exMixed : FileObj :=
  { content := utf8Encode (lit "WARC/1.0\r\nWARC-Type: metadata\r\nWARC-Record-ID: a\r\nContent-Length: 1\r\n\r\nx\r\n\r\n") ++ exArcPage.bytes ++ exArcPage.bytes }

/-- The hypotheses of `C101_ids`, `C101_distinct` and `C101_copy`. -/
example : Uncompressed exMixed 16384 ∧ ∀ i j, List.replicate i 'a' = List.replicate j 'a' → i = j :=
  ⟨⟨by decide, by simp [exMixed], fun _ => by decide +kernel, by decide +kernel⟩, fun i j h => by simpa using congrArg List.length h⟩

/-- What is handed out: the WARC record keeps its own identifier, here the one that is handed out second, so that two records have the same. -/
example : (steps exMixed { arc2warc := true, ids := fun n => List.replicate n 'a' } 16384 [[], [], []]).map (fun s => s.toOption.bind (fun x => x.1.bind (fun r => idOf r.recHeaders.headers))) =
    [some (lit "a"), some (lit "a"), some (lit "aa")] := by
  decide +kernel

end Warcio.Props
