import Verif.Spec.GzTools
import Verif.Proofs.GzParts
import Verif.Proofs.PartsTools
import Verif.Proofs.CheckParts

/-!
# The tools on any file of gzip members
-/

set_option linter.unusedSectionVars false

namespace Warcio

open ArchiveIter BufReader Indexer Checker

section
variable {σ : Type} [Zlib] [PyStream σ] [Hashlib] [PyUni] {V : σ → Bytes → Prop} {IsMember : Bytes → Bytes → Prop} {T : Int} {bs : Nat} {Q : Bytes → Prop} {io : IterOpts}
variable {L : LawfulGzip IsMember} {n : Nat} {kf : Option Format} {off : Int} {ws : List Bytes} {z : Bytes} {p : Portion} {ms : List (Bytes × Bytes)} {left : Bytes} {it : ArchiveIter σ}

/-- The end of a generator behind the first record of the last member. -/
theorem glast_ends (hV : ShortRead V) {m : Nat} (hX : ∀ rest, LineLaw (GzAt L V T bs Q rest (σ := σ)) m) {data : Bytes} (h : GLast L V T bs Q io n kf data it) (fuel : Nat) :
    ∃ e it', genLoop (fuel + 1) it = (.error e, it') ∧ (data = [] → e = .stopIteration) ∧ EndsWith io m n kf data (if e = .stopIteration then .ok () else .error e) := by
  obtain ⟨e, it', r1, -, r3⟩ := h.load hV hX fuel
  refine ⟨e, it', r1, ?_, ?_⟩
  · rintro rfl
    rcases r3 with r3 | ⟨_, p', rec', r3, r4⟩
    · cases r3 <;> first | rfl | (rename_i h0 _; exact absurd rfl h0) | (rename_i h0 _ _; exact absurd rfl h0) | contradiction
    · exfalso
      have := r4.some
      unfold Portion.all at r3
      exact this (List.append_eq_nil_iff.1 (List.append_eq_nil_iff.1 r3.symm).1).1
  · rcases r3 with r3 | ⟨rfl, r3⟩
    · exact .inl ⟨e, r3, rfl⟩
    · exact .inr ⟨rfl, r3⟩

/-- Position and size stay what they are once the record is done with. -/
theorem getField_gz (hV : ShortRead V) {size : Int} {file base : Str} (hb : IsBasename file base) (rec : Record Unit) (name : Str)
    (h : (∃ left, GAfter L V T bs Q io n kf off ws z p ms left it) ∧ ∃ it', it.readToEnd = (.ok (), it') ∧ it'.memberInfo = some (off, size)) :
    ∃ it', getField file rec name it = (.ok (rec.field off size base name), it') ∧ (∃ left, GAfter L V T bs Q io n kf off ws z p ms left it') ∧ ∃ it'', it'.readToEnd = (.ok (), it'') ∧ it''.memberInfo = some (off, size) := by
  refine getField_of (I := fun it => (∃ left, GAfter L V T bs Q io n kf off ws z p ms left it) ∧ ∃ it', it.readToEnd = (.ok (), it') ∧ it'.memberInfo = some (off, size)) hb rec name h ?_
  intro f
  obtain ⟨⟨left, h1⟩, it', h2, h3⟩ := h
  obtain ⟨x, it2, k1, k2⟩ := h1.toEnd hV
  rw [h2] at k1
  cases k1
  rcases k2 with ⟨_, _, k3, -⟩ | ⟨_, e, _, k2, _⟩
  rotate_left
  · cases k2
  unfold ArchiveIter.getMember
  by_cases hm : it.memberInfo.isNone = true
  · rw [if_pos hm, h2]
    refine ⟨it', by simp [memberField, h3], ⟨[], k3⟩, it', ?_, h3⟩
    unfold readToEnd
    have hr : it'.record.isNone = false := by have := k3.offered; cases h : it'.record <;> simp_all
    rw [hr, h3]
    rfl
  · rw [if_neg hm]
    have hs : it.memberInfo.isSome = true := by cases h : it.memberInfo <;> simp_all
    have hr : it.record.isNone = false := by have := h1.offered; cases h : it.record <;> simp_all
    have hsame : it.readToEnd = (.ok (), it) := by
      unfold readToEnd
      rw [hr, hs]
      rfl
    rw [hsame] at h2
    cases h2
    exact ⟨it, by simp [memberField, h3], ⟨left, h1⟩, it, hsame, h3⟩

/-- The index of any members. -/
theorem indexLoop_gz (hV : ShortRead V) {m : Nat} (hX : ∀ rest, LineLaw (GzAt L V T bs Q rest (σ := σ)) m) (hc : io.checkDigests = none) (ha : io.arc2warc = true) {file base : Str} (hb : IsBasename file base) {fields : List Str} :
    ∀ (fuel : Nat) {n : Nat} {off : Int} {ws : List Bytes} {z data : Bytes} {ms : List (Bytes × Bytes)} {it it0 : ArchiveIter σ} {k : Nat}, it.next = genLoop (k + 1) it0 →
    GTop L V T bs Q io n none off ws z data ms it0 → ms.length + 1 < fuel → ∃ x es, indexLoop file fields fuel it = (x, es) ∧ GzIndexed io m base fields n off ((z, data) :: ms) x es
  | 0, _, _, _, _, _, _, _, _, _, _, _, h => by omega
  | fuel + 1, n, off, ws, z, data, ms, it, it0, k, hn, ht, hf => by
    rcases ht.load hV hX k with ⟨p, rec, left, it1, k1, k2, rfl, k4, k4', k5, k6, k7, -⟩ | ⟨e, it1, k1, k2, k3, k4⟩ | ⟨k1, k2⟩
    · rw [if_pos ha] at k7
      obtain ⟨x, itE, e1, e2⟩ := k7.toEnd hV
      rcases e2 with ⟨rfl, ⟨size, e2, e3⟩, -⟩ | ⟨hq, _⟩
      rotate_left
      · rw [hc] at hq; cases hq
      obtain ⟨it2, m1, ⟨left2, m2⟩, -⟩ := entry_inv (I := fun it => (∃ left, GAfter L V T bs Q io (n + 1) none off ws z p ms left it) ∧ ∃ it', it.readToEnd = (.ok (), it') ∧ it'.memberInfo = some (off, size))
        (val := rec.field off size base) fields [] [] ⟨⟨left, k7⟩, itE, e1, e2⟩ (fun name _ _ hi => getField_gz hV hb rec name hi) (by simp) (by simp) (by simp)
      have hfil : fields.filter (fun n => !([] : List Str).contains n) = fields := by
        rw [List.filter_eq_self]; simp
      have step : indexLoop file fields (fuel + 1) it = ((indexLoop file fields fuel it2).1, rec.entry off size base fields :: (indexLoop file fields fuel it2).2) := by
        conv => lhs; unfold indexLoop
        rw [hn, k1]
        dsimp only
        rw [k2]
        dsimp only
        rw [m1]
        dsimp only
        rw [hfil]
        rfl
      rw [step]
      obtain ⟨fuel, rfl⟩ : ∃ f, fuel = f + 1 := ⟨fuel - 1, by omega⟩
      by_cases hrs : resumed p.tail = []
      · rcases m2.next hV with ⟨z', data', ms', it3, k', rfl, q0, q1, q2⟩ | ⟨it3, k', rfl, q1, q2⟩ | ⟨_, q1⟩ | ⟨_, hq, _⟩
        · obtain ⟨x, es, r1, r2⟩ := indexLoop_gz hV hX hc ha hb (fuel + 1) q1 q2 (by simp only [List.length_cons] at hf; omega)
          rw [r1, e3 hrs]
          exact ⟨_, _, rfl, .record n off z p _ rec left x es k4 k4' hrs r2⟩
        · obtain ⟨e, it4, r1, r2, -⟩ := glast_ends hV hX q2 k'
          have := r2 hrs
          subst this
          have : indexLoop file fields (fuel + 1) it2 = (.ok (), []) := by
            unfold indexLoop
            rw [q1, r1]
          rw [this, e3 hrs]
          exact ⟨_, _, rfl, .record n off z p _ rec left _ _ k4 k4' hrs (.nil _ _)⟩
        · exact absurd hrs q1
        · rw [hc] at hq; cases hq
      · refine ⟨_, _, rfl, .several n off z p ms rec left size _ _ k4 k4' hrs ?_⟩
        rintro rfl
        rcases m2.next hV with ⟨z', data', ms', it3, k', h0, _⟩ | ⟨it3, k', _, q1, q2⟩ | ⟨q1, _⟩ | ⟨_, hq, _⟩
        · cases h0
        · obtain ⟨e, it4, r1, -, r2⟩ := glast_ends hV hX q2 k'
          have : indexLoop file fields (fuel + 1) it2 = (if e = .stopIteration then .ok () else .error e, []) := by
            unfold indexLoop
            rw [q1, r1]
            cases e <;> rfl
          rw [this]
          exact ⟨rfl, r2⟩
        · exact absurd rfl q1
        · rw [hc] at hq; cases hq
    · refine ⟨_, [], ?_, .over n off z data ms e k4 k3⟩
      unfold indexLoop
      rw [hn, k1]
      cases e <;> rfl
    · exact ⟨_, _, rfl, .hollow _ _ _ _ _ _ _ k1 k2⟩

end

section
variable [PyUni] [Hashlib] [Zlib] [TameZlib] {σ : Type} [PyStream σ] [Tame σ] {V : σ → Bytes → Prop} {IsMember : Bytes → Bytes → Prop} {T : Int} {bs : Nat} {Q : Bytes → Prop} {io : IterOpts}
variable {L : LawfulGzip IsMember} {n : Nat} {kf : Option Format} {off : Int} {ws : List Bytes} {z : Bytes} {p : Portion} {ms : List (Bytes × Bytes)}

theorem readToEnd_gzView (L : LawfulGzip IsMember) (hV : ShortRead V) {it : ArchiveIter σ} {b t rest : Bytes} (hr : it.record.isSome = true) (hm : it.memberInfo = none) (hv : it.raw.View (GzAt L V T bs Q rest) b t) :
    ∃ it', it.readToEnd = (.ok (), it') := by
  have hW := gzAt_exact (T := T) (bs := bs) (Q := Q) L hV rest
  have h1 : it.record.isNone = false := by cases h : it.record <;> simp_all
  obtain ⟨raw', d1, d2, -⟩ := drain_spec hW (PyStream.bound it.raw + 2) hv (by have := hv.bound hW; omega)
  have hu := d2.under
  rw [List.nil_append] at hu
  obtain ⟨next, k, r2, ws, hcb, -⟩ := consume_to (E := fun _ => True) hW (fun _ _ => trivial) (it := { it with raw := raw' }) hu
  unfold readToEnd
  rw [h1, hm, d1]
  simp only [Option.isSome_none, Bool.false_eq_true, if_false]
  rw [hcb]
  exact ⟨_, rfl⟩

/-- One record is examined. -/
theorem examine_gz (hV : ShortRead V) {it : ArchiveIter σ} {left : Bytes} (h : GAfter L V T bs Q io n kf off ws z p ms left it) (hm : it.memberInfo = none)
    {u : Prop} {ch : DigestChecker} (hu : u → it.raw.View (GzAt L V T bs Q (membersOf ms)) left p.tail ∧ it.raw.checkerAt left = ch) {rec : Record (RawStream (BufReader σ))} (hc : it.current = some rec) (hk : rec.checker.passed = none ∧ rec.checker.problems = []) :
    (∃ c it', examine it rec = (.ok (off, c), it') ∧ GAfter L V T bs Q io n kf off ws z p ms [] it' ∧ it'.memberInfo ≠ none ∧ (u → c.passed = ch.passed ∧ c.problems = ch.problems)) ∨
    (∃ e it', examine it rec = (.error e, it') ∧ ¬ u ∧ Odd e ∧ e ≠ .outOfFuel) := by
  have hW := gzAt_exact (T := T) (bs := bs) (Q := Q) L hV (membersOf ms)
  have hfuel := (examine_uses hc).2
  have hraw := current_raw' hc
  rcases h.state with ⟨h1, h2, h3, h4⟩ | ⟨_, ⟨_, h1, _⟩, _⟩
  rotate_left
  · rw [hm] at h1; cases h1
  have hF : RestErr u .outOfFuel := .inl rfl
  have hr0 : rec.rawStream.Rests (GzAt L V T bs Q (membersOf ms)) (io.checkDigests.isSome = true) u left p.tail ch := by
    rw [hraw]; exact ⟨left, List.suffix_rfl, h4, hu⟩
  obtain ⟨s, s1, s2⟩ := contentStream_gives (rests_lines hW u left p.tail ch) rec hr0
  have hg := readBlocks_ngives hF (content_nreads hF (rests_reads (q := (io.checkDigests.isSome = true)) hW u left p.tail ch)) (by decide : (0 : Int) ≤ 1048576) (PyStream.bound s + 2) s s2
  unfold examine at hfuel ⊢
  rw [s1] at hfuel ⊢
  dsimp only at hfuel ⊢
  unfold readAllBlocks at hfuel ⊢
  generalize readBlocks 1048576 (PyStream.bound s + 2) s = y at *
  obtain ⟨bufs, y, s3⟩ := y
  obtain ⟨b, r1, r2, r3⟩ := hg.1.below
  have hA : GAfter L V T bs Q io n kf off ws z p ms b { it with raw := s3.below } :=
    ⟨h.opts, h.known, h.loads, h.closed, h.calm, h.more, h.gen, h.offered, h.total, h.mem, .inl ⟨h1, h2, h3, r2⟩⟩
  cases y with
  | error e =>
    right
    have he := (hg.2 e rfl).resolve_left (fun h => by subst h; exact hfuel rfl)
    exact ⟨e, _, rfl, he.1, he.2, fun h => by subst h; exact hfuel rfl⟩
  | ok v =>
    dsimp only at hfuel ⊢
    obtain ⟨x, it', k1, k2⟩ := hA.toEnd hV
    have hgm : ({ it with raw := s3.below } : ArchiveIter σ).getRecordOffset = (match (generalizing := false) x with | .error e => (.error e, it') | .ok _ => (memberField (·.1) it', it')) := by
      unfold getRecordOffset ArchiveIter.getMember
      rw [if_pos (by show it.memberInfo.isNone = true; rw [hm]; rfl), k1]
      cases x <;> rfl
    rw [hgm] at hfuel ⊢
    rcases k2 with ⟨rfl, ⟨size, k2, -⟩, k3, k4⟩ | ⟨hq, e, left', rfl, k2, -⟩
    · left
      dsimp only
      have hmf : memberField (·.1) it' = .ok off := by simp [memberField, k2]
      rw [hmf]
      refine ⟨_, it', rfl, k3, by rw [k2]; exact (fun h => by cases h), fun hh => ?_⟩
      have e2 : it'.raw.checkerAt [] = ch := k4.trans (r3 hh).2
      unfold Record.digestChecker
      cases hr : it'.raw with
      | verifying d => rw [hr, RawStream.checkerAt_nil] at e2; rw [← e2]; exact ⟨rfl, rfl⟩
      | bare s => rw [hr] at e2; rw [← e2]; exact hk
      | limited s => rw [hr] at e2; rw [← e2]; exact hk
    · right
      dsimp only at hfuel ⊢
      refine ⟨e, it', rfl, ?_, k2, fun h => by subst h; exact hfuel rfl⟩
      intro hh
      obtain ⟨v1, -⟩ := r3 hh
      obtain ⟨it2, d1⟩ := readToEnd_gzView L hV (it := { it with raw := s3.below }) h.offered hm v1
      rw [k1] at d1
      cases d1

/-- The name of the file is in front of the first line. -/
theorem checkLoop_named (verbose : Bool) (name : Str) : ∀ (fuel : Nat) (it : ArchiveIter σ) (printed : Bool), ∃ (x : Except PyErr Unit) (vs : List (Option Bool)) (lines : List Print),
    checkLoop verbose name fuel it printed = (x, vs.any (· == some false), if printed || lines.isEmpty then lines else .file name :: lines)
  | 0, _, _ => ⟨_, [], [], by simp [checkLoop]; rfl⟩
  | fuel + 1, it, printed => by
    unfold checkLoop
    generalize it.next = y
    obtain ⟨y, it1⟩ := y
    cases y with
    | error e => cases e <;> exact ⟨_, [], [], by simp; rfl⟩
    | ok u =>
      dsimp only
      cases it1.current with
      | none => exact ⟨_, [], [], by simp; rfl⟩
      | some rec =>
        dsimp only
        generalize examine it1 rec = y
        obtain ⟨y, it2⟩ := y
        cases y with
        | error e => exact ⟨_, [], [], by simp; rfl⟩
        | ok c =>
          obtain ⟨off, c⟩ := c
          dsimp only
          generalize verdict verbose _ _ c.passed c.problems = vd
          obtain ⟨msg, ps⟩ := vd
          dsimp only
          obtain ⟨x, vs, lines, i⟩ := checkLoop_named verbose name fuel it2 (printed || (msg.isSome || !ps.isEmpty))
          rw [i]
          refine ⟨x, c.passed :: vs, (if msg.isSome || !ps.isEmpty then [.record off (rec.recHeaders.getHeader (lit "WARC-Record-ID")) (rec.recHeaders.getHeader (lit "WARC-Type")) msg ps] else []) ++ lines, ?_⟩
          dsimp only
          congr 1
          congr 1
          cases hsh : (msg.isSome || !ps.isEmpty)
          · simp
          · cases printed <;> simp

/-- The check of any members. -/
theorem checkLoop_gz (hV : ShortRead V) {m : Nat} (hX : ∀ rest, LineLaw (GzAt L V T bs Q rest (σ := σ)) m) (hc : io.checkDigests = some .other) (verbose : Bool) (name : Str) :
    ∀ (fuel : Nat) {n : Nat} {kf : Option Format} {off : Int} {ws : List Bytes} {z data : Bytes} {ms : List (Bytes × Bytes)} {it it0 : ArchiveIter σ} {k : Nat} (printed : Bool), it.next = genLoop (k + 1) it0 →
    GTop L V T bs Q io n kf off ws z data ms it0 → ms.length + 1 < fuel → (∃ x vs lines, GzChecked io m verbose n kf off ((z, data) :: ms) x vs lines ∧
      checkLoop verbose name fuel it printed = (x, vs.any (· == some false), if printed || lines.isEmpty then lines else .file name :: lines))
  | 0, _, _, _, _, _, _, _, _, _, _, _, _, _, h => by omega
  | fuel + 1, n, kf, off, ws, z, data, ms, it, it0, k, printed, hn, ht, hf => by
    rcases ht.load hV hX k with ⟨p, rec, left, it1, k1, k2, rfl, k4, k4', k5, k6, k7, k8, -, k10⟩ | ⟨e, it1, k1, k2, k3, k4⟩ | ⟨k1, k2⟩
    · have k10 := k10 (by rw [hc]; rfl) (by rw [hc]; exact (fun h => by cases h))
      obtain ⟨r, r1, r2, r3, r4⟩ := current_of k2
      rw [checkLoop.eq_def]
      dsimp only
      rw [hn, k1]
      dsimp only
      rw [r1]
      dsimp only
      rcases examine_gz hV k7 k8 (u := rec.Usable) (ch := it1.raw.checkerAt left) (fun h => ⟨(k10 h).1, rfl⟩) r1 (by rw [r3, k4.checker]; exact ⟨rfl, rfl⟩) with
        ⟨c, it2, e1, e2, e3, e4⟩ | ⟨e, it2, e1, e2, e3, e4⟩
      · rw [e1]
        dsimp only
        rw [r2]
        generalize hv : verdict verbose _ _ c.passed c.problems = vd
        obtain ⟨msg, ps⟩ := vd
        dsimp only
        have hline := checkLine_of (off := off) (fun h h' => by rw [(e4 h).2]; exact (k10 h).2.2.2.1 (by rw [← (e4 h).1]; exact h')) hv
        have hver : rec.Usable → p.Verdict rec left c.passed := fun h => by rw [(e4 h).1]; exact (k10 h).2.1
        have glue : ∀ {x vs lines}, checkLoop verbose name fuel it2 (printed || (msg.isSome || !ps.isEmpty)) =
              (x, vs.any (· == some false), if (printed || (msg.isSome || !ps.isEmpty)) || lines.isEmpty then lines else .file name :: lines) →
            ((checkLoop verbose name fuel it2 (printed || (msg.isSome || !ps.isEmpty))).1, (c.passed == some false || (checkLoop verbose name fuel it2 (printed || (msg.isSome || !ps.isEmpty))).2.1),
              (if (msg.isSome || !ps.isEmpty) = true then (if printed = true then [] else [Print.file name]) ++ [.record off (rec.recHeaders.getHeader (lit "WARC-Record-ID")) (rec.recHeaders.getHeader (lit "WARC-Type")) msg ps] else []) ++
                (checkLoop verbose name fuel it2 (printed || (msg.isSome || !ps.isEmpty))).2.2) =
            (x, (c.passed :: vs).any (· == some false), if printed || ((if msg.isSome || !ps.isEmpty then [Print.record off (rec.recHeaders.getHeader (lit "WARC-Record-ID")) (rec.recHeaders.getHeader (lit "WARC-Type")) msg ps] else []) ++ lines).isEmpty
              then ((if msg.isSome || !ps.isEmpty then [Print.record off (rec.recHeaders.getHeader (lit "WARC-Record-ID")) (rec.recHeaders.getHeader (lit "WARC-Type")) msg ps] else []) ++ lines) else
              .file name :: ((if msg.isSome || !ps.isEmpty then [Print.record off (rec.recHeaders.getHeader (lit "WARC-Record-ID")) (rec.recHeaders.getHeader (lit "WARC-Type")) msg ps] else []) ++ lines)) := by
          intro x vs lines i
          rw [i]
          dsimp only
          congr 1
          congr 1
          cases hsh : (msg.isSome || !ps.isEmpty)
          · simp
          · cases printed <;> simp
        have stop : ∀ {e it3 it4 k'}, it2.next = genLoop (k' + 1) it3 → genLoop (k' + 1) it3 = (.error e, it4) → ∀ pr, checkLoop verbose name fuel it2 pr = (if e = .stopIteration then .ok () else .error e, false, []) := by
          intro e it3 it4 k' h1 h2 pr
          obtain ⟨fuel, rfl⟩ : ∃ f, fuel = f + 1 := ⟨fuel - 1, by omega⟩
          unfold checkLoop
          rw [h1, h2]
          cases e <;> rfl
        by_cases hrs : resumed p.tail = []
        · rcases e2.next hV with ⟨z', data', ms', it3, k', rfl, q0, q1, q2⟩ | ⟨it3, k', rfl, q1, q2⟩ | ⟨_, q1⟩ | ⟨h0, _⟩
          · obtain ⟨x, vs, lines, i1, i2⟩ := checkLoop_gz hV hX hc verbose name fuel (printed || (msg.isSome || !ps.isEmpty)) q1 q2 (by simp only [List.length_cons] at hf; omega)
            exact ⟨x, c.passed :: vs, _, .record n kf off z p _ rec left c.passed _ x vs lines k4 k4' k5 (fun h => k6 (.inr h)) hver hline hrs i1, glue i2⟩
          · obtain ⟨e, it4, r1, r2, -⟩ := glast_ends hV hX q2 k'
            have := r2 hrs
            subst this
            exact ⟨_, c.passed :: [], _, .record n kf off z p _ rec left c.passed _ _ [] [] k4 k4' k5 (fun h => k6 (.inr h)) hver hline hrs (.nil _ _ _), glue (by rw [stop q1 r1]; simp)⟩
          · exact absurd hrs q1
          · exact absurd h0 e3
        · by_cases hms : ms = []
          · subst hms
            rcases e2.next hV with ⟨z', data', ms', it3, k', h0, _⟩ | ⟨it3, k', _, q1, q2⟩ | ⟨q1, _⟩ | ⟨h0, _⟩
            · cases h0
            · obtain ⟨e, it4, r1, -, r2⟩ := glast_ends hV hX q2 k'
              exact ⟨_, c.passed :: [], _, .several n kf off z p _ rec left c.passed _ _ [] [] k4 k4' k5 (fun h => k6 (.inr h)) hver hline hrs (fun _ => ⟨rfl, rfl, r2⟩), glue (by rw [stop q1 r1]; simp)⟩
            · exact absurd rfl q1
            · exact absurd h0 e3
          · obtain ⟨x, vs, lines, i⟩ := checkLoop_named verbose name fuel it2 (printed || (msg.isSome || !ps.isEmpty))
            exact ⟨x, c.passed :: vs, _, .several n kf off z p _ rec left c.passed _ x vs lines k4 k4' k5 (fun h => k6 (.inr h)) hver hline hrs (fun h => absurd h hms), glue i⟩
      · rw [e1]
        exact ⟨_, [], [], .broken n kf off z p ms rec e k4 e2 e3.2 e3.1 e4, by simp⟩
    · refine ⟨_, [], [], .over n kf off z data ms e k4 k3, ?_⟩
      unfold checkLoop
      rw [hn, k1]
      cases e <;> simp
    · obtain ⟨x, vs, lines, i⟩ := checkLoop_named verbose name (fuel + 1) it printed
      exact ⟨x, vs, lines, .hollow _ _ _ _ _ _ _ _ _ k1 k2, i⟩

end
end Warcio
