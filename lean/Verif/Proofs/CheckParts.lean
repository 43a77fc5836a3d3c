import Verif.Spec.CheckParts
import Verif.Proofs.Parts
import Verif.Proofs.ErrsTools
import Verif.Proofs.TameTools

/-!
# `warcio check` on any uncompressed file
-/

set_option linter.unusedSectionVars false

namespace Warcio

open ArchiveIter BufReader Checker

section
variable {σ : Type} [PyStream σ] [Hashlib] {W : σ → Bytes → Prop} {q : Prop}

/-- Some of `left` is still there; if `u`, digests do not raise and the verdict is to be `c`. -/
def RawStream.Rests (W : σ → Bytes → Prop) (q u : Prop) (left t : Bytes) (c : DigestChecker) (raw : RawStream σ) : Prop :=
  ∃ b, b <:+ left ∧ raw.Lies W q b t ∧ (u → raw.View W b t ∧ raw.checkerAt b = c)

/-- What reading can raise: an odd error, if digests may raise. -/
def RestErr (u : Prop) (e : PyErr) : Prop := e = .outOfFuel ∨ (¬ u ∧ Odd e)

theorem rests_call (hW : ExactRead W) {u : Prop} {left t : Bytes} {ch : DigestChecker} {raw : RawStream σ} (h : raw.Rests W q u left t ch) {c : Call} (hc : c.nonneg) :
    Gives (RawStream.Rests W q u left t ch) (RestErr u) (c.run raw) := by
  obtain ⟨b, h1, h2, h3⟩ := h
  obtain ⟨p, b', raw', x, k1, k2, k3, k4⟩ := h2.call hW hc
  rw [k1]
  by_cases hu : u
  · obtain ⟨v1, v2⟩ := h3 hu
    obtain ⟨p', b2, raw2, m1, m2, m3, -⟩ := v1.call hW hc
    rw [k1] at m1
    simp only [Prod.mk.injEq] at m1
    obtain ⟨rfl, rfl⟩ := m1
    have hb : b2 = b' := by
      rcases k4 with ⟨k4, -⟩ | ⟨_, e, k4, -⟩
      · cases k4; rw [k2] at m2; exact (List.append_cancel_left m2).symm
      · cases k4
    subst hb
    exact .ok ⟨b2, List.IsSuffix.trans ⟨p, k2.symm⟩ h1, k3, fun _ => ⟨m3, (h2.checkerAt hc k1 m2).trans v2⟩⟩
  · have hs : raw'.Rests W q u left t ch := ⟨b', List.IsSuffix.trans ⟨p, k2.symm⟩ h1, k3, fun h => absurd h hu⟩
    rcases k4 with ⟨rfl, -⟩ | ⟨_, e, rfl, k5⟩
    · exact .ok hs
    · exact .err hs (.inr ⟨hu, k5⟩)

theorem rests_reads (hW : ExactRead W) (u : Prop) (left t : Bytes) (ch : DigestChecker) : NReads (RawStream σ) (RawStream.Rests W q u left t ch) (RestErr u) :=
  fun _ n hn hs => rests_call hW hs (c := .read n) (fun k hk => hn k hk)

theorem rests_lines (hW : ExactRead W) (u : Prop) (left t : Bytes) (ch : DigestChecker) : NLines (RawStream σ) (RawStream.Rests W q u left t ch) (RestErr u) :=
  fun _ n hn hs => rests_call hW hs (c := .readline n) (fun k hk => hn k hk)

end

section
variable [PyUni] [Hashlib] [Zlib] [TameZlib] {σ : Type} [PyStream σ] [Tame σ] {V : σ → Bytes → Prop} {IsMember : Bytes → Bytes → Prop} {T : Int} {N bs : Nat} {io : IterOpts}
variable {n : Nat} {kf : Option Format} {off : Int} {ws : List (Int × Bytes)} {p : Portion}

theorem current_of {it : ArchiveIter σ} {rec : Record Unit} (h : it.record = some rec) : ∃ r, it.current = some r ∧ r.recHeaders = rec.recHeaders ∧ r.checker = rec.checker ∧ r.rawStream = it.raw := by
  unfold ArchiveIter.current
  rw [h]
  exact ⟨_, rfl, rfl, rfl, rfl⟩

theorem readToEnd_view (L : LawfulGzip IsMember) (hV : ShortRead V) {it : ArchiveIter σ} {b t : Bytes} (hr : it.record.isSome = true) (hm : it.memberInfo = none) (hv : it.raw.View (PlainAt V T N bs) b t) :
    ∃ it', it.readToEnd = (.ok (), it') := by
  have hW := plainAt_exact (T := T) (N := N) (bs := bs) L hV
  have h1 : it.record.isNone = false := by cases h : it.record <;> simp_all
  obtain ⟨raw', d1, d2, -⟩ := drain_spec hW (PyStream.bound it.raw + 2) hv (by have := hv.bound hW; omega)
  have hu := d2.under
  rw [List.nil_append] at hu
  obtain ⟨next, r2, hcb, -⟩ := consume_any hW (PlainAt.position L) (it := { it with raw := raw' }) hu
  unfold readToEnd
  rw [h1, hm, d1]
  simp only [Option.isSome_none, Bool.false_eq_true, if_false]
  rw [hcb]
  exact ⟨_, rfl⟩

/-- One record is examined. -/
theorem examine_any (L : LawfulGzip IsMember) (hV : ShortRead V) {it : ArchiveIter σ} {left : Bytes} (h : AnyAfter V T N bs io n kf off ws p left it) (hm : it.memberInfo = none)
    {u : Prop} {ch : DigestChecker} (hu : u → it.raw.View (PlainAt V T N bs) left p.tail ∧ it.raw.checkerAt left = ch) {rec : Record (RawStream (BufReader σ))} (hc : it.current = some rec) (hk : rec.checker.passed = none ∧ rec.checker.problems = []) :
    (∃ c it', examine it rec = (.ok (off, c), it') ∧ AnyAfter V T N bs io n kf off ws p [] it' ∧ it'.memberInfo ≠ none ∧ (u → c.passed = ch.passed ∧ c.problems = ch.problems)) ∨
    (∃ e it', examine it rec = (.error e, it') ∧ ¬ u ∧ Odd e ∧ e ≠ .outOfFuel) := by
  have hW := plainAt_exact (T := T) (N := N) (bs := bs) L hV
  have hfuel := (examine_uses hc).2
  have hraw := current_raw' hc
  rcases h.state with ⟨h1, h2, h3, h4⟩ | ⟨_, h1, _⟩
  rotate_left
  · rw [hm] at h1; cases h1
  have hF : RestErr u .outOfFuel := .inl rfl
  have hr0 : rec.rawStream.Rests (PlainAt V T N bs) (io.checkDigests.isSome = true) u left p.tail ch := by
    rw [hraw]; exact ⟨left, List.suffix_rfl, h4, hu⟩
  obtain ⟨s, s1, s2⟩ := contentStream_gives (rests_lines hW u left p.tail ch) rec hr0
  have hg := readBlocks_ngives hF (content_nreads hF (rests_reads (q := (io.checkDigests.isSome = true)) hW u left p.tail ch)) (by decide : (0 : Int) ≤ 1048576) (PyStream.bound s + 2) s s2
  unfold examine at hfuel ⊢
  rw [s1] at hfuel ⊢
  dsimp only at hfuel ⊢
  unfold readAllBlocks at hfuel ⊢
  generalize readBlocks 1048576 (PyStream.bound s + 2) s = y at *
  obtain ⟨bufs, y, s3⟩ := y
  obtain ⟨b, r1, r2, r3⟩ := hg.1.below
  have hA : AnyAfter V T N bs io n kf off ws p b { it with raw := s3.below } :=
    ⟨h.opts, h.known, h.loads, h.closed, h.calm, h.more, h.gen, h.offered, h.total, h.le, .inl ⟨h1, h2, h3, r2⟩⟩
  cases y with
  | error e =>
    right
    have he := (hg.2 e rfl).resolve_left (fun h => by subst h; exact hfuel rfl)
    exact ⟨e, _, rfl, he.1, he.2, fun h => by subst h; exact hfuel rfl⟩
  | ok v =>
    dsimp only at hfuel ⊢
    obtain ⟨x, it', k1, k2⟩ := hA.toEnd L hV
    have hgm : ({ it with raw := s3.below } : ArchiveIter σ).getRecordOffset = (match (generalizing := false) x with | .error e => (.error e, it') | .ok _ => (memberField (·.1) it', it')) := by
      unfold getRecordOffset ArchiveIter.getMember
      rw [if_pos (by show it.memberInfo.isNone = true; rw [hm]; rfl), k1]
      cases x <;> rfl
    rw [hgm] at hfuel ⊢
    rcases k2 with ⟨rfl, k2, k3, k4⟩ | ⟨hq, e, left', rfl, k2, -⟩
    · left
      dsimp only
      have hmf : memberField (·.1) it' = .ok off := by simp [memberField, k2]
      rw [hmf]
      refine ⟨_, it', rfl, k3, by rw [k2]; exact (fun h => by cases h), fun hh => ?_⟩
      have e2 : it'.raw.checkerAt [] = ch := k4.trans (r3 hh).2
      unfold Record.digestChecker
      cases hr : it'.raw with
      | verifying d => rw [hr, RawStream.checkerAt_nil] at e2; rw [← e2]; exact ⟨rfl, rfl⟩
      | bare s => rw [hr] at e2; rw [← e2]; exact hk
      | limited s => rw [hr] at e2; rw [← e2]; exact hk
    · right
      dsimp only at hfuel ⊢
      refine ⟨e, it', rfl, ?_, k2, fun h => by subst h; exact hfuel rfl⟩
      intro hh
      obtain ⟨v1, -⟩ := r3 hh
      obtain ⟨it2, d1⟩ := readToEnd_view L hV (it := { it with raw := s3.below }) h.offered hm v1
      rw [k1] at d1
      cases d1

/-- Behind a record that was read to its end. -/
theorem next_done (L : LawfulGzip IsMember) (hV : ShortRead V) {it : ArchiveIter σ} {left : Bytes} (h : AnyAfter V T N bs io n kf off ws p left it) (hm : it.memberInfo ≠ none) :
    ∃ it' k, it.next = genLoop (k + 1) it' ∧ AnyTop V T N bs io n kf (off + len p.bytes + len (skipped p.tail))
      (ws ++ (strayLines p.tail).map (fun l => (off + len p.bytes, l))) (resumed p.tail) it' := by
  exact (h.next' L hV).resolve_right (fun h => hm h.1)

/-- What is printed for a record. -/
theorem checkLine_of {verbose : Bool} {off : Int} {rec : Record Unit} {c : DigestChecker} (hu : rec.Usable → (c.passed = some false → c.problems ≠ [])) {msg : Option Str} {ps : List Problem}
    (hv : verdict verbose (Loader.truthy (rec.recHeaders.getHeader (lit "WARC-Payload-Digest")) || Loader.truthy (rec.recHeaders.getHeader (lit "WARC-Block-Digest"))) (rec.recHeaders.getHeader (lit "WARC-Type")) c.passed c.problems = (msg, ps)) :
    CheckLine verbose off rec c.passed (if msg.isSome || !ps.isEmpty then [.record off (rec.recHeaders.getHeader (lit "WARC-Record-ID")) (rec.recHeaders.getHeader (lit "WARC-Type")) msg ps] else []) := by
  have hg : ∀ n, rec.recHeaders.getHeader n = firstValue n rec.recHeaders.headers := fun n => (Loader.firstValue_eq n _).symm
  rw [hg, hg, hg] at hv
  rw [hg, hg]
  have ht : ∀ v : Option Str, Loader.truthy v = true ↔ v.getD [] ≠ [] := by
    intro v
    rcases v with _ | _ | _ <;> simp [Loader.truthy]
  cases hp : c.passed with
  | none =>
    rw [hp] at hv
    simp only [verdict, Prod.mk.injEq] at hv
    obtain ⟨rfl, rfl⟩ := hv
    cases verbose with
    | false => exact .quiet _ (fun h => by cases h) rfl
    | true =>
      have := CheckLine.note (verbose := true) (off := off) (rec := rec) none (fun h => by cases h) rfl
      refine cast (congrArg (fun z => CheckLine true off rec none [Print.record off _ _ (some z) []]) ?_) this
      unfold Record.note
      rw [if_neg (fun h => by cases h)]
      generalize firstValue (lit "WARC-Payload-Digest") rec.recHeaders.headers = a
      generalize firstValue (lit "WARC-Block-Digest") rec.recHeaders.headers = b
      have ha := ht a
      have hb := ht b
      by_cases h1 : a.getD [] = [] ∧ b.getD [] = []
      · have : Loader.truthy a = false ∧ Loader.truthy b = false := ⟨by rw [Bool.eq_false_iff, Ne, ha]; exact fun h => h h1.1, by rw [Bool.eq_false_iff, Ne, hb]; exact fun h => h h1.2⟩
        rw [if_pos h1, this.1, this.2]
        rfl
      · have : (Loader.truthy a || Loader.truthy b) = true := by
          rw [Bool.or_eq_true, ha, hb]
          exact Classical.byContradiction (fun h => h1 (by rw [not_or, Classical.not_not, Classical.not_not] at h; exact h))
        rw [if_neg h1, this]
        simp only [Bool.true_and, beq_iff_eq, if_true]
  | some b =>
    cases b with
    | false =>
      rw [hp] at hv
      simp only [verdict, Prod.mk.injEq] at hv
      obtain ⟨rfl, rfl⟩ := hv
      have := CheckLine.bad (verbose := verbose) (off := off) (rec := rec) c.problems (fun h => hu h hp)
      cases hps : c.problems with
      | nil => rw [hps] at this; exact this
      | cons a t => rw [hps] at this; exact this
    | true =>
      rw [hp] at hv
      simp only [verdict, Prod.mk.injEq] at hv
      obtain ⟨rfl, rfl⟩ := hv
      cases verbose with
      | false => exact .quiet _ (fun h => by cases h) rfl
      | true => exact CheckLine.note (verbose := true) (off := off) (rec := rec) (some true) (fun h => by cases h) rfl

/-- The check of any uncompressed file. -/
theorem checkLoop_any (L : LawfulGzip IsMember) (hV : ShortRead V) {m : Nat} (hX : LineLaw (PlainAt V T N bs) m) (hc : io.checkDigests = some .other) (hnp : io.noRecordParse = false) (verbose : Bool) (name : Str) :
    ∀ (fuel : Nat) {n : Nat} {kf : Option Format} {off : Int} {ws : List (Int × Bytes)} {data : Bytes} {it it0 : ArchiveIter σ} {k : Nat} (printed : Bool), it.next = genLoop (k + 1) it0 →
    AnyTop V T N bs io n kf off ws data it0 → data.length < fuel → ∃ x vs lines, CheckedParts io m verbose n kf off data x vs lines ∧
      checkLoop verbose name fuel it printed = (x, vs.any (· == some false), if printed || lines.isEmpty then lines else .file name :: lines)
  | 0, _, _, _, _, _, _, _, _, _, _, _, h => by omega
  | fuel + 1, n, kf, off, ws, data, it, it0, k, printed, hn, ht, hf => by
    rcases ht.load' L hV hX k with ⟨p, rec, left, it1, k1, k2, rfl, k4, k4', k5, k6, k7, k8, -, k10⟩ | ⟨e, it1, k1, k2, k3⟩
    · have k10 := k10 (by rw [hc]; rfl) (by rw [hc]; exact (fun h => by cases h))
      obtain ⟨r, r1, r2, r3, r4⟩ := current_of k2
      unfold checkLoop
      rw [hn, k1]
      dsimp only
      rw [r1]
      dsimp only
      rcases examine_any L hV k7 k8 (u := rec.Usable) (ch := it1.raw.checkerAt left) (fun h => ⟨(k10 h).1, rfl⟩) r1 (by rw [r3, k4.checker]; exact ⟨rfl, rfl⟩) with
        ⟨c, it2, e1, e2, e3, e4⟩ | ⟨e, it2, e1, e2, e3, e4⟩
      · rw [e1]
        dsimp only
        obtain ⟨it3, k', q1, q2⟩ := next_done L hV e2 e3
        have hlen : (resumed p.tail).length < fuel := by
          have h1 := congrArg List.length (skipped_append p.tail)
          have h2 := List.length_pos_iff.2 k4.some
          simp only [Portion.all, List.length_append] at h1 hf
          omega
        rw [r2]
        generalize hv : verdict verbose _ _ c.passed c.problems = vd
        obtain ⟨msg, ps⟩ := vd
        dsimp only
        obtain ⟨x, vs, lines, i1, i2⟩ := checkLoop_any L hV hX hc hnp verbose name fuel (printed || (msg.isSome || !ps.isEmpty)) q1 q2 hlen
        rw [i2]
        refine ⟨x, c.passed :: vs, _, .record n kf off p rec left c.passed _ x vs lines k4 k4' k5 (fun h => k6 (.inr h)) (fun h => by rw [(e4 h).1]; exact (k10 h).2.1)
          (checkLine_of (fun h h' => by rw [(e4 h).2]; exact (k10 h).2.2.2.1 (by rw [← (e4 h).1]; exact h')) hv) i1, ?_⟩
        dsimp only
        congr 1
        congr 1
        cases hsh : (msg.isSome || !ps.isEmpty)
        · simp
        · cases printed <;> simp
      · rw [e1]
        exact ⟨_, [], [], .broken n kf off p rec e k4 e2 e3.2 e3.1 e4, by simp⟩
    · refine ⟨_, [], [], .over n kf off data e k3, ?_⟩
      unfold checkLoop
      rw [hn, k1]
      cases e <;> simp

end
end Warcio
