import Verif.Props.Index
import Verif.Props.Cut
import Verif.Props.Stray
import Verif.Props.ArcArchive
import Verif.Spec.Check

/-!
# Properties C57, C65 and C74: `warcio check`, and the verdicts of `check_digests`

`WarcRecord.Verdict` (`Verif/Spec/Check.lean`) says what the verdict on a record is.
-/

set_option linter.unusedSectionVars false

namespace Warcio.Props

open Warcio ArchiveIter Checker

section
variable [PyUni] [Hashlib] [Zlib] {IsMember : Bytes → Bytes → Prop} {IsCoded : DType → Bytes → Bytes → Prop}

/-- The payload that is shown is the payload. -/
theorem payload_shown {w : WarcRecord} {io : IterOpts} {m : Nat} {rec : Record Unit} {left p : Bytes} (hs : w.Shows io m rec left) (hn : io.noRecordParse = false) (hp : w.Payload m p) : left = p := by
  cases hp with
  | whole h => exact (hs.block (.inr h)).1
  | http h p g1 g2 g3 g4 =>
    obtain ⟨y, k1, _⟩ := hs.http hn g1 g2 g3
    exact (k1.det g4).2.2.2

/-- When the record has been read, the verdict is there. -/
theorem verdict_now {σ : Type} [PyStream σ] {multi : Bool} {last : Option PyErr} {it : ArchiveIter σ} {w : WarcRecord} {io : IterOpts} {m : Nat} {off size : Int} {before behind : List (Int × Bytes)} {es : List Expected}
    (h : Now multi last it { w.expected io m off size with before := before, behind := behind } [] es) (hn : io.noRecordParse = false) (hk : io.checkDigests.isSome = true) {v : Option Bool} (hv : w.Verdict m v)
    (rec : Record Unit) (hr : rec.checker.passed = none ∧ rec.checker.problems = []) :
    (withRaw rec it.raw).digestChecker.passed = v ∧ (v = some false ↔ (withRaw rec it.raw).digestChecker.problems ≠ []) := by
  obtain ⟨rec', left, h1, h2, h3, h4⟩ := h.verdict
  obtain ⟨p, ob, op, p1, p2, p3, rfl⟩ := hv
  have := payload_shown h1 hn p1
  subst this
  have h5 := h2.2 hk ob op p2 p3
  have e : (withRaw rec it.raw).digestChecker.passed = (it.raw.checkerAt []).passed ∧ (withRaw rec it.raw).digestChecker.problems = (it.raw.checkerAt []).problems := by
    unfold Record.digestChecker
    cases hraw : it.raw with
    | verifying d => rw [RawStream.checkerAt_nil]; exact ⟨rfl, rfl⟩
    | bare s => exact hr
    | limited s => exact hr
  rw [e.1, e.2]
  exact ⟨h5, by rw [← h5]; exact h4⟩

/-- What is needed of a record: digest headers that can be checked, a content that can be read, and the verdict. -/
structure Checkable (IsCoded : DType → Bytes → Bytes → Prop) (m : Nat) (w : WarcRecord) (v : Option Bool) : Prop where
  usable : DigestsUsable (w.value (lit "WARC-Type")) (w.value (lit "WARC-Segment-Number")) (w.value (lit "WARC-Block-Digest")) (w.value (lit "WARC-Payload-Digest"))
  content : ∃ d, w.Content IsCoded m d
  line : w.Http → 64 ≤ m
  verdict : w.Verdict m v

/-- How the archive is opened. -/
abbrev checkOpts : IterOpts := { checkDigests := some .other }

theorem offset_of {σ : Type} [PyStream σ] {multi : Bool} {last : Option PyErr} {it : ArchiveIter σ} {e : Expected} {left : Bytes} {es : List Expected} (h : Now multi last it e left es) :
    ∃ it', it.getRecordOffset = (.ok e.off, it') ∧ Now multi last it' e [] es := by
  obtain ⟨v, it', left', k1, k2, k3⟩ := h.op (op := .offset) ⟨trivial, fun _ h => by cases h⟩
  obtain ⟨rfl, rfl⟩ := k2
  simp only [UserOp.run] at k1
  generalize it.getRecordOffset = x at k1
  obtain ⟨x, it2⟩ := x
  cases x with
  | error e => simp [Except.map] at k1
  | ok n =>
    simp only [Except.map, Prod.mk.injEq, Except.ok.injEq, UserVal.int.injEq] at k1
    obtain ⟨rfl, rfl⟩ := k1
    exact ⟨it2, rfl, k3⟩

theorem examine_spec (LC : LawfulCodecs IsCoded) {σ : Type} [PyStream σ] {multi : Bool} {last : Option PyErr} {it : ArchiveIter σ} {w : WarcRecord} {m : Nat} {off size : Int} {before behind : List (Int × Bytes)} {left : Bytes} {es : List Expected}
    (h : Now multi last it { w.expected checkOpts m off size with before := before, behind := behind } left es) {rec : Record Unit} (hs : w.Shows checkOpts m rec left) {v : Option Bool} (hc : Checkable IsCoded m w v) :
    ∃ c it', examine it (withRaw rec it.raw) = (.ok (off, c), it') ∧ Now multi last it' { w.expected checkOpts m off size with before := before, behind := behind } [] es ∧ c.passed = v ∧ (v = some false ↔ c.problems ≠ []) := by
  obtain ⟨d, hd⟩ := hc.content
  obtain ⟨cs, W, c1, c2, c3, c4⟩ := content_now LC h hs rfl rfl hc.line hd
  have G := ContentStream.gets (rawView_gets (multi := multi) (last := last) (it := it) (e := { w.expected checkOpts m off size with before := before, behind := behind }) (es := es)) c2
  obtain ⟨bufs, s', b1, b2, b3⟩ := G.readBlocks (n := 1048576) (by decide) (PyStream.bound cs + 2) c4 (by have := G.bound c4; omega)
  obtain ⟨p, b4⟩ := b3.below c3
  obtain ⟨it', o1, o2⟩ := offset_of b4
  have hv := verdict_now o2 rfl rfl hc.verdict rec ⟨by rw [hs.checker], by rw [hs.checker]⟩
  refine ⟨_, it', ?_, o2, hv.1, hv.2⟩
  unfold examine
  rw [c1]
  dsimp only
  have : readAllBlocks 1048576 cs = (bufs, .ok (), s') := b1
  rw [this]
  dsimp only
  rw [o1]
  rfl

/-- A record that is cut off: its digest headers could be checked, and what there is of its content can be read; the verdict is that on digests of an unknown kind. -/
structure CutCheckable (IsCoded : DType → Bytes → Bytes → Prop) (m : Nat) (w : WarcRecord) (part : Bytes) (v : Option Bool) : Prop where
  short : part <+: w.block ∧ part ≠ w.block
  usable : DigestsUsable (w.value (lit "WARC-Type")) (w.value (lit "WARC-Segment-Number")) (w.value (lit "WARC-Block-Digest")) (w.value (lit "WARC-Payload-Digest"))
  content : ∃ d, ({ w with block := part } : WarcRecord).Content IsCoded m d
  line : w.Http → 64 ≤ m
  verdict : v ≠ some true ∧ (v = some false ↔ UnknownDigest w.digests.1 ∨ UnknownDigest w.digests.2)

/-- When a record that is cut off has been read, the verdict is there. -/
theorem cut_verdict_now {σ : Type} [PyStream σ] {multi : Bool} {last : Option PyErr} {it : ArchiveIter σ} {w : WarcRecord} {part : Bytes} {m : Nat} {off size : Int} {es : List Expected}
    (h : Now multi last it (w.expectedPart part checkOpts m off size) [] es) (hne : part ≠ w.block) {v : Option Bool} (hv : v ≠ some true ∧ (v = some false ↔ UnknownDigest w.digests.1 ∨ UnknownDigest w.digests.2))
    (rec : Record Unit) (hr : rec.checker.passed = none ∧ rec.checker.problems = []) :
    (withRaw rec it.raw).digestChecker.passed = v ∧ (v = some false ↔ (withRaw rec it.raw).digestChecker.problems ≠ []) := by
  obtain ⟨rec', left, h1, h2⟩ := h.verdict
  obtain ⟨g1, g2, g3⟩ := (show w.JudgedPart part checkOpts left (it.raw.checkerAt []) from h2).2 hne
  have e : (withRaw rec it.raw).digestChecker.passed = (it.raw.checkerAt []).passed ∧ (withRaw rec it.raw).digestChecker.problems = (it.raw.checkerAt []).problems := by
    unfold Record.digestChecker
    cases hraw : it.raw with
    | verifying d => rw [RawStream.checkerAt_nil]; exact ⟨rfl, rfl⟩
    | bare s => exact hr
    | limited s => exact hr
  have h5 : (it.raw.checkerAt []).passed = v := by
    have g4 : (it.raw.checkerAt []).passed = some false ↔ v = some false := by
      rw [g3, hv.2]
      exact ⟨fun h => h.2, fun h => ⟨rfl, h⟩⟩
    generalize (it.raw.checkerAt []).passed = a at g1 g4
    have := hv.1
    rcases a with _ | _ | _ <;> rcases v with _ | _ | _ <;> simp_all
  rw [e.1, e.2]
  exact ⟨h5, by rw [← h5]; exact g2⟩

theorem examine_cut (LC : LawfulCodecs IsCoded) {σ : Type} [PyStream σ] {multi : Bool} {last : Option PyErr} {it : ArchiveIter σ} {w : WarcRecord} {part : Bytes} {m : Nat} {off size : Int} {left : Bytes} {es : List Expected}
    (h : Now multi last it (w.expectedPart part checkOpts m off size) left es) {rec : Record Unit} (hs : w.ShowsPart part checkOpts m rec left) {v : Option Bool} (hc : CutCheckable IsCoded m w part v) :
    ∃ c it', examine it (withRaw rec it.raw) = (.ok (off, c), it') ∧ Now multi last it' (w.expectedPart part checkOpts m off size) [] es ∧ c.passed = v ∧ (v = some false ↔ c.problems ≠ []) := by
  obtain ⟨d, hd⟩ := hc.content
  obtain ⟨cs, W, c1, c2, c3, c4⟩ := content_cut LC h hs rfl rfl hc.line hd
  have G := ContentStream.gets (rawView_gets (multi := multi) (last := last) (it := it) (e := w.expectedPart part checkOpts m off size) (es := es)) c2
  obtain ⟨bufs, s', b1, b2, b3⟩ := G.readBlocks (n := 1048576) (by decide) (PyStream.bound cs + 2) c4 (by have := G.bound c4; omega)
  obtain ⟨p, b4⟩ := b3.below c3
  obtain ⟨it', o1, o2⟩ := offset_of b4
  have hv := cut_verdict_now o2 hc.short.2 hc.verdict rec ⟨by rw [hs.checker], by rw [hs.checker]⟩
  refine ⟨_, it', ?_, o2, hv.1, hv.2⟩
  unfold examine
  rw [c1]
  dsimp only
  have : readAllBlocks 1048576 cs = (bufs, .ok (), s') := b1
  rw [this]
  dsimp only
  rw [o1]
  rfl

/-- What is needed of an ARC record: a content that can be read. -/
structure ArcCheckable (IsCoded : DType → Bytes → Bytes → Prop) (m : Nat) (a : ArcRecord) : Prop where
  content : ∃ d, a.Content IsCoded m d
  line : a.Http {} → 64 ≤ m

theorem examine_arc (LC : LawfulCodecs IsCoded) {σ : Type} [PyStream σ] {multi : Bool} {last : Option PyErr} {it : ArchiveIter σ} {a : ArcRecord} {m : Nat} {off size : Int} {left : Bytes} {es : List Expected}
    (h : Now multi last it (a.expected checkOpts m off size) left es) {rec : Record Unit} (hs : a.Shows checkOpts m rec left) (hc : ArcCheckable IsCoded m a) :
    ∃ c it', examine it (withRaw rec it.raw) = (.ok (off, c), it') ∧ Now multi last it' (a.expected checkOpts m off size) [] es ∧ c.passed = none ∧ c.problems = [] := by
  obtain ⟨d, hd⟩ := hc.content
  obtain ⟨cs, W, c1, c2, c3, c4⟩ := content_like LC h (http := a.Http {}) (block := a.block) (m := m) (rec := rec)
    (fun h0 => ⟨(hs.block (.inr h0)).1, (hs.block (.inr h0)).2.2 rfl⟩)
    (fun g1 g2 g3 => by
      obtain ⟨y, k1, k2⟩ := hs.http rfl g1 g2 g3
      exact ⟨y, k1, fun h => (k2 h).1⟩) hc.line hd
  have G := ContentStream.gets (rawView_gets (multi := multi) (last := last) (it := it) (e := a.expected checkOpts m off size) (es := es)) c2
  obtain ⟨bufs, s', b1, b2, b3⟩ := G.readBlocks (n := 1048576) (by decide) (PyStream.bound cs + 2) c4 (by have := G.bound c4; omega)
  obtain ⟨p, b4⟩ := b3.below c3
  obtain ⟨it', o1, o2⟩ := offset_of b4
  obtain ⟨rec', left', h1, h2, h3⟩ := o2.verdict
  have hv : (withRaw rec it'.raw).digestChecker.passed = none ∧ (withRaw rec it'.raw).digestChecker.problems = [] := by
    unfold Record.digestChecker
    cases hraw : it'.raw with
    | verifying d => rw [hraw, RawStream.checkerAt_nil] at h2 h3; exact ⟨h2, h3⟩
    | bare s => exact ⟨by show rec.checker.passed = _; rw [hs.checker], by show rec.checker.problems = _; rw [hs.checker]⟩
    | limited s => exact ⟨by show rec.checker.passed = _; rw [hs.checker], by show rec.checker.problems = _; rw [hs.checker]⟩
  refine ⟨_, it', ?_, o2, hv.1, hv.2⟩
  unfold examine
  rw [c1]
  dsimp only
  have : readAllBlocks 1048576 cs = (bufs, .ok (), s') := b1
  rw [this]
  dsimp only
  rw [o1]
  rfl

/-- Examining what is expected next gives this verdict on this record. -/
def Examined (σ : Type) [PyStream σ] (multi : Bool) (l : PyErr) (x : Located × Option Bool) (e : Expected) : Prop :=
  ∀ (it : ArchiveIter σ) (rec : Record Unit) (left : Bytes) (es : List Expected), Now multi (some l) it e left es → e.shows rec left →
    (∃ c it', examine it (withRaw rec it.raw) = (.ok (x.1.offset, c), it') ∧ Now multi (some l) it' e [] es ∧ c.passed = x.2 ∧ (x.2 = some false ↔ c.problems ≠ [])) ∧
    ∀ n, PyUni.lower n ≠ PyUni.lower (lit "WARC-Target-URI") → rec.recHeaders.getHeader n = x.1.record.value n

theorem Checkable.examined (LC : LawfulCodecs IsCoded) {σ : Type} [PyStream σ] {multi : Bool} {l : PyErr} {m : Nat} {x : Located × Option Bool} (h : Checkable IsCoded m x.1.record x.2) :
    Examined σ multi l x (x.1.record.expected checkOpts m x.1.offset x.1.size) :=
  fun _ _ _ _ hn hs => ⟨examine_spec LC hn hs h, WarcRecord.Shows.others hs⟩

theorem CutCheckable.examined (LC : LawfulCodecs IsCoded) {σ : Type} [PyStream σ] {multi : Bool} {l : PyErr} {m : Nat} {x : Located × Option Bool} {part : Bytes} (h : CutCheckable IsCoded m x.1.record part x.2) :
    Examined σ multi l x (x.1.record.expectedPart part checkOpts m x.1.offset x.1.size) :=
  fun _ _ _ _ hn hs => ⟨examine_cut LC hn hs h, WarcRecord.ShowsPart.others hs⟩

theorem Checkable.examined_stray (LC : LawfulCodecs IsCoded) {σ : Type} [PyStream σ] {multi : Bool} {l : PyErr} {m : Nat} {x : Located × Option Bool} {before behind : List (Int × Bytes)} (h : Checkable IsCoded m x.1.record x.2) :
    Examined σ multi l x { x.1.record.expected checkOpts m x.1.offset x.1.size with before := before, behind := behind } :=
  fun _ _ _ _ hn hs => ⟨examine_spec LC hn hs h, WarcRecord.Shows.others hs⟩

/-- An ARC record as it is checked. -/
def arcUnchecked (y : ArcAt) : Located × Option Bool := (⟨y.record.asShown, y.offset, y.size, none⟩, none)

theorem ArcCheckable.examined (LC : LawfulCodecs IsCoded) {σ : Type} [PyStream σ] {multi : Bool} {l : PyErr} {m : Nat} {y : ArcAt} (h : ArcCheckable IsCoded m y.record) :
    Examined σ multi l (arcUnchecked y) (y.record.expected checkOpts m y.offset y.size) :=
  fun _ _ _ _ hn hs => ⟨by
    obtain ⟨c, it', k1, k2, k3, k4⟩ := examine_arc LC hn hs h
    exact ⟨c, it', k1, k2, k3, by rw [k4]; simp [arcUnchecked]⟩, fun n _ => by
    have e := ArcRecord.Shows.headers hs rfl
    show StatusAndHeaders.findHeader n _ = firstValue n _
    rw [e, Loader.firstValue_eq]; rfl⟩

theorem arcs_examined (LC : LawfulCodecs IsCoded) {σ : Type} [PyStream σ] {multi : Bool} {l : PyErr} {m : Nat} : ∀ (ys : List ArcAt), (∀ y ∈ ys, ArcCheckable IsCoded m y.record) →
    Each (Examined σ multi l) (ys.map arcUnchecked) (ys.map (fun y => y.record.expected checkOpts m y.offset y.size))
  | [], _ => .nil
  | y :: ys, h => .cons ((h y (by simp)).examined LC) (arcs_examined LC ys (fun z hz => h z (by simp [hz])))

theorem strayed_examined (LC : LawfulCodecs IsCoded) {σ : Type} [PyStream σ] {multi : Bool} {l : PyErr} {m : Nat} : ∀ (ys : List (WarcRecord × List Bytes)) (xs : List (Located × Option Bool)) (off : Int) (ws : List (Int × Bytes)),
    xs.map (·.1) = placements off (ys.map (fun y => (y.1, none))) → (∀ x ∈ xs, Checkable IsCoded m x.1.record x.2) → Each (Examined σ multi l) xs (WarcRecord.strayed checkOpts m off ws ys)
  | [], xs, _, _, h, _ => by
    have : xs = [] := by simpa [placements] using h
    subst this
    exact .nil
  | (w, ls) :: ys, [], _, _, h, _ => by cases h
  | (w, ls) :: ys, x :: xs, off, ws, h, hx => by
    rw [List.map_cons, List.map_cons, placements] at h
    obtain ⟨h1, h2⟩ := List.cons.inj h
    obtain ⟨x, v⟩ := x
    dsimp only at h1
    subst h1
    have e : len (w.head ++ w.block) = len w.head + len w.block := by simp [len]
    rw [e] at hx ⊢
    exact .cons (Checkable.examined_stray (x := (⟨w, off, len w.head + len w.block, none⟩, v)) LC (hx _ (by simp))) (strayed_examined LC ys xs _ _ h2 (fun y hy => hx y (by simp [hy])))

/-- The loop of `process_one`. -/
theorem checkLoop_examined {σ : Type} [PyStream σ] (verbose : Bool) (name : Str) {multi : Bool} {l : PyErr} : ∀ (xs : List (Located × Option Bool)) (es : List Expected) (fuel : Nat) {it : ArchiveIter σ} (printed : Bool),
    Ready multi (some l) it es → Each (Examined σ multi l) xs es → xs.length < fuel →
    ∃ lines, CheckLines verbose xs lines ∧
      checkLoop verbose name fuel it printed = (if l = .stopIteration then .ok () else .error l, xs.any (fun x => x.2 == some false), if lines = [] ∨ printed = true then lines else .file name :: lines)
  | _, _, 0, _, _, _, _, h => by omega
  | [], _, fuel + 1, it, printed, h, he, _ => by
    cases he
    obtain ⟨it', k⟩ := Ready.stop h
    refine ⟨[], .nil, ?_⟩
    unfold checkLoop
    rw [k]
    cases l <;> rfl
  | (x, v) :: xs, [], fuel + 1, it, printed, h, he, hf => by cases he
  | (x, v) :: xs, e :: es, fuel + 1, it, printed, h, he, hf => by
    have hx : Examined σ multi l (x, v) e := by cases he; assumption
    have hxs : Each (Examined σ multi l) xs es := by cases he; assumption
    obtain ⟨it', rec, left, k1, k2, k3, k4⟩ := Ready.record h
    obtain ⟨⟨c, it2, e1, e2, e3, e4⟩, hoth⟩ := hx _ _ _ _ k4 k3
    have hcur : it'.current = some (withRaw rec it'.raw) := by rw [current_eq, k2]; rfl
    have hid : ∀ n, n ∈ [lit "WARC-Record-ID", lit "WARC-Type", lit "WARC-Payload-Digest", lit "WARC-Block-Digest"] → (withRaw rec it'.raw).recHeaders.getHeader n = x.record.value n := by
      intro n hn
      refine hoth n ?_
      simp only [List.mem_cons, List.not_mem_nil, or_false] at hn
      rcases hn with rfl | rfl | rfl | rfl <;> exact Loader.lower_ne (by decide) (by decide) (by decide)
    have ih := fun b => checkLoop_examined verbose name xs es fuel b e2.ready hxs (by simp at hf; omega)
    unfold checkLoop
    rw [k1]
    dsimp only
    rw [hcur]
    dsimp only
    rw [e1]
    dsimp only
    rw [hid _ (by simp), hid _ (by simp), hid _ (by simp), hid _ (by simp), e3]
    have hp : (Loader.truthy (x.record.value (lit "WARC-Payload-Digest")) || Loader.truthy (x.record.value (lit "WARC-Block-Digest"))) =
        !decide ((x.record.value (lit "WARC-Payload-Digest")).getD [] = [] ∧ (x.record.value (lit "WARC-Block-Digest")).getD [] = []) := by
      generalize x.record.value (lit "WARC-Payload-Digest") = a
      generalize x.record.value (lit "WARC-Block-Digest") = b
      rcases a with _ | _ | _ <;> rcases b with _ | _ | _ <;> simp [Loader.truthy]
    rw [hp]
    by_cases hv : v = some false
    · subst hv
      have hne := e4.1 rfl
      have hne' : (!c.problems.isEmpty) = true := by cases h : c.problems with
        | nil => exact absurd h hne
        | cons _ _ => rfl
      obtain ⟨lines, q1, q2⟩ := ih (printed || true)
      refine ⟨_, .bad x xs c.problems lines hne q1, ?_⟩
      simp only [verdict, Option.isSome_none, Bool.false_or, hne', q2, if_true]
      cases printed <;> simp
    · have hvb : (v == some false) = false := by simpa using hv
      cases verbose with
      | false =>
        obtain ⟨lines, q1, q2⟩ := ih printed
        refine ⟨_, .quiet x v xs lines hv rfl q1, ?_⟩
        have : verdict false (!decide ((x.record.value (lit "WARC-Payload-Digest")).getD [] = [] ∧ (x.record.value (lit "WARC-Block-Digest")).getD [] = [])) (x.record.value (lit "WARC-Type")) v c.problems = (none, []) := by
          rcases v with _ | _ | _
          · rfl
          · exact absurd rfl hv
          · rfl
        rw [this]
        simp [q2, hvb]
      | true =>
        obtain ⟨lines, q1, q2⟩ := ih (printed || true)
        refine ⟨_, .note x v xs lines hv rfl q1, ?_⟩
        have : verdict true (!decide ((x.record.value (lit "WARC-Payload-Digest")).getD [] = [] ∧ (x.record.value (lit "WARC-Block-Digest")).getD [] = [])) (x.record.value (lit "WARC-Type")) v c.problems = (some (x.record.note v), []) := by
          rcases v with _ | _ | _
          · unfold WarcRecord.note
            rw [if_neg (by simp)]
            show (some _, []) = _
            by_cases g : (x.record.value (lit "WARC-Payload-Digest")).getD [] = [] ∧ (x.record.value (lit "WARC-Block-Digest")).getD [] = []
            · rw [if_pos g, decide_eq_true g]; rfl
            · rw [if_neg g, decide_eq_false g]
              by_cases g2 : x.record.value (lit "WARC-Type") = some (lit "revisit")
              · rw [if_pos g2, g2]; rfl
              · rw [if_neg g2, if_neg (by simpa using g2)]; rfl
          · exact absurd rfl hv
          · rfl
        rw [this]
        simp only [Option.isSome_some, Bool.true_or, q2, if_true]
        cases printed <;> simp [hvb]

theorem checkables_examined (LC : LawfulCodecs IsCoded) {σ : Type} [PyStream σ] {multi : Bool} {l : PyErr} {m : Nat} : ∀ (xs : List (Located × Option Bool)), (∀ x ∈ xs, Checkable IsCoded m x.1.record x.2) →
    Each (Examined σ multi l) xs (xs.map (fun x => x.1.record.expected checkOpts m x.1.offset x.1.size))
  | [], _ => .nil
  | x :: xs, h => .cons ((h x (by simp)).examined LC) (checkables_examined LC xs (fun y hy => h y (by simp [hy])))

theorem checkLoop_ready (LC : LawfulCodecs IsCoded) {σ : Type} [PyStream σ] (verbose : Bool) (name : Str) {multi : Bool} {l : PyErr} {m : Nat} (xs : List (Located × Option Bool)) (fuel : Nat) {it : ArchiveIter σ} (printed : Bool)
    (h : Ready multi (some l) it (xs.map (fun x => x.1.record.expected checkOpts m x.1.offset x.1.size))) (hx : ∀ x ∈ xs, Checkable IsCoded m x.1.record x.2) (hf : xs.length < fuel) :
    ∃ lines, CheckLines verbose xs lines ∧
      checkLoop verbose name fuel it printed = (if l = .stopIteration then .ok () else .error l, xs.any (fun x => x.2 == some false), if lines = [] ∨ printed = true then lines else .file name :: lines) :=
  checkLoop_examined verbose name xs _ fuel printed h (checkables_examined LC xs hx) hf

/-- An input of `warcio check`: an archive with these records and verdicts; or one gzip member with two records or more, of which
the first is read; or a file that ends in the block of its last record, or before a block that should be HTTP, or with such a part of a gzip member; or an uncompressed
file with lines that are not blank behind some blocks, and maybe with something that is no record at its end; or one that is no archive; or an ARC file,
where there is nothing to check. -/
inductive CheckInput {IsMember : Bytes → Bytes → Prop} (L : LawfulGzip IsMember) (IsCoded : DType → Bytes → Bytes → Prop) (m : Nat) : FileObj → List (Located × Option Bool) → Bool → Prop
  | archive (f xs) : Archived IsMember m f (xs.map (·.1)) → (∀ x ∈ xs, Checkable IsCoded m x.1.record x.2) → CheckInput L IsCoded m f xs false
  | member (f : FileObj) (w w' : WarcRecord) (ws : List WarcRecord) (v : Option Bool) : (∀ x ∈ w :: w' :: ws, x.Good ∧ DigestsUsable (x.value (lit "WARC-Type")) (x.value (lit "WARC-Segment-Number")) (x.value (lit "WARC-Block-Digest")) (x.value (lit "WARC-Payload-Digest"))) →
      IsMember f.rest ((w :: w' :: ws).flatMap WarcRecord.bytes) → ReadsGz f 16384 m [f.rest] → Checkable IsCoded m w v →
      CheckInput L IsCoded m f [(⟨w, f.origin, 0, none⟩, v)] true
  | cut (f : FileObj) (xs : List (Located × Option Bool)) (ys : List (WarcRecord × Option StatusAndHeaders)) (w : WarcRecord) (part : Bytes) (v : Option Bool) : xs.map (·.1) = placements f.origin ys →
      (∀ y ∈ ys, y.1.Good) → (∀ x ∈ xs, Checkable IsCoded m x.1.record x.2) → w.Good → CutCheckable IsCoded m w part v → (part = [] → ¬ w.Http ∨ w.value (lit "WARC-Type") = some (lit "revisit")) →
      f.rest = ys.flatMap (·.1.bytes) ++ (w.head ++ part) → Reads f 16384 m →
      CheckInput L IsCoded m f (xs ++ [(⟨w, f.origin + len (ys.flatMap (·.1.bytes)), len w.head + len part, none⟩, v)]) false
  | gone (f : FileObj) (xs : List (Located × Option Bool)) (ys : List (WarcRecord × Option StatusAndHeaders)) (w : WarcRecord) : xs.map (·.1) = placements f.origin ys →
      (∀ y ∈ ys, y.1.Good) → (∀ x ∈ xs, Checkable IsCoded m x.1.record x.2) → w.Good →
      DigestsUsable (w.value (lit "WARC-Type")) (w.value (lit "WARC-Segment-Number")) (w.value (lit "WARC-Block-Digest")) (w.value (lit "WARC-Payload-Digest")) →
      w.Http → w.value (lit "WARC-Type") ≠ some (lit "revisit") → w.block ≠ [] →
      f.rest = ys.flatMap (·.1.bytes) ++ w.head → Reads f 16384 m → CheckInput L IsCoded m f xs false
  | cutGz (f : FileObj) (xs : List (Located × Option Bool)) (ys : List (Bytes × WarcRecord × Option StatusAndHeaders)) (w : WarcRecord) (part p : Bytes) (v : Option Bool) : xs.map (·.1) = placementsGz f.origin ys →
      (∀ y ∈ ys, y.2.1.Good ∧ IsMember y.1 y.2.1.bytes) → (∀ x ∈ xs, Checkable IsCoded m x.1.record x.2) → w.Good → CutCheckable IsCoded m w part v → (part = [] → ¬ w.Http ∨ w.value (lit "WARC-Type") = some (lit "revisit")) →
      L.CutOff p (w.head ++ part) → f.rest = ys.flatMap (·.1) ++ p → ReadsGz f 16384 m (ys.map (·.1) ++ [p]) →
      CheckInput L IsCoded m f (xs ++ [(⟨w, f.origin + len (ys.flatMap (·.1)), len p, none⟩, v)]) false
  | goneGz (f : FileObj) (xs : List (Located × Option Bool)) (ys : List (Bytes × WarcRecord × Option StatusAndHeaders)) (w : WarcRecord) (d p : Bytes) : xs.map (·.1) = placementsGz f.origin ys →
      (∀ y ∈ ys, y.2.1.Good ∧ IsMember y.1 y.2.1.bytes) → (∀ x ∈ xs, Checkable IsCoded m x.1.record x.2) → w.Good →
      DigestsUsable (w.value (lit "WARC-Type")) (w.value (lit "WARC-Segment-Number")) (w.value (lit "WARC-Block-Digest")) (w.value (lit "WARC-Payload-Digest")) →
      d = [] ∨ (d = w.head ∧ w.Http ∧ w.value (lit "WARC-Type") ≠ some (lit "revisit") ∧ w.block ≠ []) → L.CutOff p d →
      f.rest = ys.flatMap (·.1) ++ p → ReadsGz f 16384 m (ys.map (·.1) ++ [p]) → CheckInput L IsCoded m f xs false
  | stray (f : FileObj) (xs : List (Located × Option Bool)) (ys : List (WarcRecord × List Bytes)) (tl : Bytes) (bad : Bool) : xs.map (·.1) = placements f.origin (ys.map (fun y => (y.1, none))) →
      (∀ y ∈ ys, y.1.Whole ∧ Gap y.1.sep y.2) → (∀ x ∈ xs, Checkable IsCoded m x.1.record x.2) → f.rest = ys.flatMap (·.1.bytes) ++ tl →
      (tl = [] ∧ bad = false) ∨ (ys ≠ [] ∧ lineText (takeLine tl) ≠ [] ∧ ¬ StartsWarc tl ∧ bad = true) → Reads f 16384 m → CheckInput L IsCoded m f xs bad
  | unknown (f : FileObj) : lineText (takeLine f.rest) ≠ [] → ¬ StartsWarc f.rest → (lineText (takeLine f.rest)).count ' ' < 4 → 2 ≤ f.rest.length → ¬ [0x1f, 0x8b] <+: f.rest → Reads f 16384 m →
      CheckInput L IsCoded m f [] true
  | arc (f : FileObj) (ys : List ArcAt) : ArcArchived IsMember m f ys → (∀ y ∈ ys, ArcCheckable IsCoded m y.record) → CheckInput L IsCoded m f (ys.map arcUnchecked) false

/-- The records before the last one. -/
theorem before_cut {m : Nat} {f : FileObj} {xs : List (Located × Option Bool)} {ys : List (WarcRecord × Option StatusAndHeaders)} (hp : xs.map (·.1) = placements f.origin ys) (hy : ∀ y ∈ ys, y.1.Good)
    (hx : ∀ x ∈ xs, Checkable IsCoded m x.1.record x.2) {w : WarcRecord} (hw : w.Good)
    (hu : DigestsUsable (w.value (lit "WARC-Type")) (w.value (lit "WARC-Segment-Number")) (w.value (lit "WARC-Block-Digest")) (w.value (lit "WARC-Payload-Digest"))) :
    Fit checkOpts (ys.map (·.1) ++ [w]) ∧ WarcRecord.placed checkOpts m f.origin (ys.map (·.1)) = xs.map (fun x => x.1.record.expected checkOpts m x.1.offset x.1.size) ∧
      xs.length ≤ (ys.flatMap (·.1.bytes)).length := by
  refine ⟨⟨?_, ?_, rfl⟩, ?_, ?_⟩
  · intro x hx
    rcases List.mem_append.1 hx with hx | hx
    · obtain ⟨y, hy', rfl⟩ := List.mem_map.1 hx
      exact hy y hy'
    · rw [List.mem_singleton.1 hx]; exact hw
  · intro x hx'
    refine .inr ⟨by decide, ?_⟩
    rcases List.mem_append.1 hx' with hx' | hx'
    · obtain ⟨y, hy', rfl⟩ := List.mem_map.1 hx'
      obtain ⟨z, h1, h2⟩ := placements_mem ys f.origin y hy'
      rw [← hp] at h1
      obtain ⟨x, h3, rfl⟩ := List.mem_map.1 h1
      rw [← h2]
      exact (hx x h3).usable
    · rw [List.mem_singleton.1 hx']; exact hu
  · rw [placed_of, ← hp, List.map_map]; rfl
  · have h1 := congrArg List.length hp
    rw [placements_length, List.length_map] at h1
    rw [h1]
    refine length_le_flatMap _ _ (fun y hy' h0 => ?_)
    have := (hy y hy').sep.1
    simp only [WarcRecord.bytes, List.append_eq_nil_iff] at h0
    exact this h0.2

theorem before_cutGz {m : Nat} {f : FileObj} {xs : List (Located × Option Bool)} {ys : List (Bytes × WarcRecord × Option StatusAndHeaders)} (hp : xs.map (·.1) = placementsGz f.origin ys) (hy : ∀ y ∈ ys, y.2.1.Good)
    (hx : ∀ x ∈ xs, Checkable IsCoded m x.1.record x.2) {w : WarcRecord} (hw : w.Good)
    (hu : DigestsUsable (w.value (lit "WARC-Type")) (w.value (lit "WARC-Segment-Number")) (w.value (lit "WARC-Block-Digest")) (w.value (lit "WARC-Payload-Digest"))) :
    Fit checkOpts ((ys.map (fun y => (y.1, y.2.1))).map (·.2) ++ [w]) ∧ WarcRecord.placedGz checkOpts m f.origin (ys.map (fun y => (y.1, y.2.1))) = xs.map (fun x => x.1.record.expected checkOpts m x.1.offset x.1.size) ∧
      xs.length = ys.length := by
  refine ⟨⟨?_, ?_, rfl⟩, ?_, ?_⟩
  · intro x hx
    rcases List.mem_append.1 hx with hx | hx
    · rw [List.map_map] at hx
      obtain ⟨y, hy', rfl⟩ := List.mem_map.1 hx
      exact hy y hy'
    · rw [List.mem_singleton.1 hx]; exact hw
  · intro x hx'
    refine .inr ⟨by decide, ?_⟩
    rcases List.mem_append.1 hx' with hx' | hx'
    · rw [List.map_map] at hx'
      obtain ⟨y, hy', rfl⟩ := List.mem_map.1 hx'
      obtain ⟨z, h1, h2⟩ := placementsGz_mem ys f.origin y hy'
      rw [← hp] at h1
      obtain ⟨x, h3, rfl⟩ := List.mem_map.1 h1
      show DigestsUsable (firstValue _ y.2.1.headers) (firstValue _ y.2.1.headers) (firstValue _ y.2.1.headers) (firstValue _ y.2.1.headers)
      rw [← h2]
      exact (hx x h3).usable
    · rw [List.mem_singleton.1 hx']; exact hu
  · rw [placedGz_of, ← hp, List.map_map]; rfl
  · have h1 := congrArg List.length hp
    rw [placementsGz_length, List.length_map] at h1
    exact h1

theorem processOne_spec (L : LawfulGzip IsMember) (LC : LawfulCodecs IsCoded) (verbose : Bool) (name : Str) {m : Nat} {f : FileObj} {xs : List (Located × Option Bool)} {failed : Bool} (h : CheckInput L IsCoded m f xs failed) :
    ∃ lines e, CheckLines verbose xs lines ∧ e.isArchiveLoadFailed = true ∧ processOne verbose name f =
      (if failed then .error e else .ok (), xs.any (fun x => x.2 == some false), if lines = [] then lines else .file name :: lines) := by
  cases h with
  | archive _ h1 h2 =>
    obtain ⟨it, k1, k2, k3⟩ := archived_ready L h1 (io := checkOpts) rfl (fun x hx => by
      obtain ⟨y, hy, rfl⟩ := List.mem_map.1 hx
      exact .inr ⟨by decide, (h2 y hy).usable⟩)
    rw [List.map_map] at k2
    obtain ⟨lines, q1, q2⟩ := checkLoop_ready LC verbose name xs (PyStream.bound it.reader + 2) false k2 h2 (by have := open_bound k1; simp at k3; omega)
    refine ⟨lines, .nonChunkedGzip, q1, rfl, ?_⟩
    unfold processOne
    rw [k1]
    dsimp only
    rw [q2]
    simp
  | member w w' ws v h1 h2 h3 h4 =>
    obtain ⟨it, k1, k2⟩ := multi_ready L (io := checkOpts) ⟨fun x hx => (h1 x hx).1, fun x hx => .inr ⟨by decide, (h1 x hx).2⟩, rfl⟩ h2 h3 (kf := none) (by simp)
    obtain ⟨lines, q1, q2⟩ := checkLoop_ready (xs := [(⟨w, f.origin, 0, none⟩, v)]) LC verbose name (PyStream.bound it.reader + 2) false k2 (by simpa using h4) (by simp)
    refine ⟨lines, .nonChunkedGzip, q1, rfl, ?_⟩
    unfold processOne
    rw [k1]
    dsimp only
    rw [q2]
    simp
  | cut xs ys w part v h1 h2 h3 h4 h5 h6 h7 h8 =>
    obtain ⟨b1, b2, b3⟩ := before_cut h1 h2 h3 h4 h5.usable
    have e : (ys.map (·.1)).flatMap WarcRecord.bytes = ys.flatMap (·.1.bytes) := by rw [List.flatMap_map]
    obtain ⟨it, k1, k2⟩ := cut_ready L b1 (.inl ⟨h5.short.1, rfl⟩) (fun h0 => .inr (.inr (h6 h0))) (by rw [e, List.append_nil]; exact h7) h8 (kf := none) (by simp)
    rw [b2, e] at k2
    obtain ⟨lines, q1, q2⟩ := checkLoop_examined verbose name (xs ++ [(⟨w, f.origin + len (ys.flatMap (·.1.bytes)), len w.head + len part, none⟩, v)]) _ (PyStream.bound it.reader + 2) false k2
      (each_append (checkables_examined LC xs h3) (.cons (CutCheckable.examined (x := (⟨w, f.origin + len (ys.flatMap (·.1.bytes)), len w.head + len part, none⟩, v)) LC h5) .nil))
      (by have := open_bound k1; rw [h7] at this; simp only [List.length_append, List.length_singleton] at this ⊢; omega)
    refine ⟨lines, .nonChunkedGzip, q1, rfl, ?_⟩
    unfold processOne
    rw [k1]
    dsimp only
    rw [q2]
    simp
  | gone xs ys w h1 h2 h3 h4 h5 h6 h7 h8 h9 h10 =>
    obtain ⟨b1, b2, b3⟩ := before_cut h1 h2 h3 h4 h5
    have e : (ys.map (·.1)).flatMap WarcRecord.bytes = ys.flatMap (·.1.bytes) := by rw [List.flatMap_map]
    obtain ⟨it, k1, k2⟩ := gone_ready L b1 rfl h6 h7 h8 (by rw [e]; exact h9) h10 (kf := none) (by simp)
    rw [b2] at k2
    obtain ⟨lines, q1, q2⟩ := checkLoop_ready LC verbose name xs (PyStream.bound it.reader + 2) false k2 h3 (by have := open_bound k1; rw [h9] at this; simp only [List.length_append] at this; omega)
    refine ⟨lines, .nonChunkedGzip, q1, rfl, ?_⟩
    unfold processOne
    rw [k1]
    dsimp only
    rw [q2]
    simp
  | cutGz xs ys w part p v h1 h2 h3 h4 h5 h6 h7 h8 h9 =>
    obtain ⟨b1, b2, b3⟩ := before_cutGz h1 (fun y hy => (h2 y hy).1) h3 h4 h5.usable
    have e : (ys.map (fun y => (y.1, y.2.1))).flatMap (·.1) = ys.flatMap (·.1) := by rw [List.flatMap_map]
    have e' : (ys.map (fun y => (y.1, y.2.1))).map (·.1) = ys.map (·.1) := by rw [List.map_map]; rfl
    have hl : ys.length ≤ (ys.flatMap (·.1)).length := length_le_flatMap _ _ (fun y hy h0 => by
      obtain ⟨t, ht⟩ := L.magic (h2 y hy).2
      rw [h0] at ht; cases ht)
    obtain ⟨it, k1, k2⟩ := cutGz_ready L b1 (fun x hx => by obtain ⟨y, hy, rfl⟩ := List.mem_map.1 hx; exact (h2 y hy).2) (p := p) (.inl ⟨h5.short.1, rfl⟩) (fun h0 => .inr (.inr (h6 h0)))
      (by rw [List.append_nil]; exact h7) (by rw [e]; exact h8) (by rw [e']; exact h9) (kf := none) (by simp)
    rw [b2, e] at k2
    obtain ⟨lines, q1, q2⟩ := checkLoop_examined verbose name (xs ++ [(⟨w, f.origin + len (ys.flatMap (·.1)), len p, none⟩, v)]) _ (PyStream.bound it.reader + 2) false k2
      (each_append (checkables_examined LC xs h3) (.cons (CutCheckable.examined (x := (⟨w, f.origin + len (ys.flatMap (·.1)), len p, none⟩, v)) LC h5) .nil))
      (by have := open_bound k1; rw [h8] at this; simp only [List.length_append, List.length_singleton] at this ⊢; omega)
    refine ⟨lines, .nonChunkedGzip, q1, rfl, ?_⟩
    unfold processOne
    rw [k1]
    dsimp only
    rw [q2]
    simp
  | goneGz _ ys w d p h1 h2 h3 h4 h5 h6 h7 h8 h9 =>
    obtain ⟨b1, b2, b3⟩ := before_cutGz h1 (fun y hy => (h2 y hy).1) h3 h4 h5
    have e : (ys.map (fun y => (y.1, y.2.1))).flatMap (·.1) = ys.flatMap (·.1) := by rw [List.flatMap_map]
    have e' : (ys.map (fun y => (y.1, y.2.1))).map (·.1) = ys.map (·.1) := by rw [List.map_map]; rfl
    have hl : ys.length ≤ (ys.flatMap (·.1)).length := length_le_flatMap _ _ (fun y hy h0 => by
      obtain ⟨t, ht⟩ := L.magic (h2 y hy).2
      rw [h0] at ht; cases ht)
    obtain ⟨it, k1, k2⟩ := goneGz_ready L b1 (fun x hx => by obtain ⟨y, hy, rfl⟩ := List.mem_map.1 hx; exact (h2 y hy).2) (h6.imp id (fun h => ⟨h.1, rfl, h.2⟩)) h7
      (by rw [e]; exact h8) (by rw [e']; exact h9) (kf := none) (by simp)
    rw [b2] at k2
    obtain ⟨lines, q1, q2⟩ := checkLoop_ready LC verbose name xs (PyStream.bound it.reader + 2) false k2 h3 (by have := open_bound k1; rw [h8] at this; simp only [List.length_append] at this; omega)
    refine ⟨lines, .nonChunkedGzip, q1, rfl, ?_⟩
    unfold processOne
    rw [k1]
    dsimp only
    rw [q2]
    simp
  | stray _ ys tl _ h1 h2 h3 h4 h5 h6 =>
    have hu : ∀ y ∈ ys, Quiet { checkDigests := checkOpts.checkDigests } y.1.headers := by
      intro y hy
      obtain ⟨z, z1, z2⟩ := placements_mem (ys.map (fun y => (y.1, none))) f.origin (y.1, none) (List.mem_map.2 ⟨y, hy, rfl⟩)
      rw [← h1] at z1
      obtain ⟨x, x1, rfl⟩ := List.mem_map.1 z1
      rw [← z2]
      exact .inr ⟨by decide, (h3 x x1).usable⟩
    have hlen : xs.length ≤ f.rest.length := by
      have e1 := congrArg List.length h1
      rw [List.length_map, placements_length, List.length_map] at e1
      rw [e1, h4, List.length_append]
      have : ∀ ys : List (WarcRecord × List Bytes), (∀ y ∈ ys, y.1.Whole ∧ Gap y.1.sep y.2) → ys.length ≤ (ys.flatMap (·.1.bytes)).length := by
        intro ys
        induction ys with
        | nil => simp
        | cons y ys ih =>
          intro h
          have := ih (fun z hz => h z (by simp [hz]))
          have h2 : 0 < y.1.sep.length := List.length_pos_iff.2 (h y (by simp)).2.ne_nil
          have h3 : y.1.sep.length ≤ y.1.bytes.length := by simp only [WarcRecord.bytes, List.length_append]; omega
          simp only [List.length_cons, List.flatMap_cons, List.length_append]; omega
      have := this ys h2
      omega
    obtain ⟨it, k1, k2⟩ := loose_ready L (io := checkOpts) (xs := ys) (last := if failed then .invalidWarc else .stopIteration) ⟨fun y hy => (h2 y hy).1, fun y hy => (h2 y hy).2, hu, rfl⟩ h4 (by
      rcases h5 with ⟨g1, rfl⟩ | ⟨g1, g2, g3, rfl⟩
      · exact .inl ⟨g1, rfl⟩
      · exact .inr ⟨g1, rfl, g2, g3, rfl⟩) h6 (kf := none) (by simp)
    obtain ⟨lines, q1, q2⟩ := checkLoop_examined verbose name xs _ (PyStream.bound it.reader + 2) false k2 (strayed_examined LC ys xs _ _ h1 h3) (by have := open_bound k1; omega)
    refine ⟨lines, .invalidWarc, q1, rfl, ?_⟩
    unfold processOne
    rw [k1]
    dsimp only
    rw [q2]
    cases failed <;> simp
  | unknown h1 h2 h3 h4 h5 h6 =>
    obtain ⟨it, k1, k2⟩ := unknown_ready L (io := checkOpts) h1 h2 h3 h4 h5 h6
    obtain ⟨lines, q1, q2⟩ := checkLoop_examined verbose name [] _ (PyStream.bound it.reader + 2) false k2 .nil (by simp)
    refine ⟨lines, .unknownFormat, q1, rfl, ?_⟩
    unfold processOne
    rw [k1]
    dsimp only
    rw [q2]
    simp
  | arc ys h1 h2 =>
    obtain ⟨it, k1, k2, k3⟩ := arc_archived_ready L h1 (io := checkOpts) rfl (by decide)
    obtain ⟨lines, q1, q2⟩ := checkLoop_examined verbose name (ys.map arcUnchecked) _ (PyStream.bound it.reader + 2) false k2 (arcs_examined LC ys h2) (by have := open_bound k1; rw [List.length_map]; omega)
    refine ⟨lines, .nonChunkedGzip, q1, rfl, ?_⟩
    unfold processOne
    rw [k1]
    dsimp only
    rw [q2]
    simp

/-! ## C57 -/

theorem exists_cons {α : Type} {p : α → Prop} {a : α} {t : List α} : (∃ i ∈ a :: t, p i) ↔ p a ∨ ∃ i ∈ t, p i := by simp

theorem one_if {p q r : Prop} {n : Nat} [Decidable p] [Decidable q] [Decidable r] (h : p ↔ q ∨ r) : (if p then 1 else n) = if r then 1 else if q then 1 else n := by
  by_cases hq : q <;> by_cases hr : r <;> simp [h, hq, hr]

/-- C57, the exit value, for any inputs whatever: as long as nothing but `ArchiveLoadFailed` is raised it is 1 if some input could not be read or had a
failure, and otherwise 0. -/
theorem C57_exit (verbose : Bool) (inputs : List (Str × FileObj)) (h : ∀ i ∈ inputs, ∀ e, (processOne verbose i.1 i.2).1 = .error e → e.isArchiveLoadFailed = true) :
    (processAll verbose inputs 0).1 =
      .ok (if ∃ i ∈ inputs, (processOne verbose i.1 i.2).1 ≠ .ok () ∨ (processOne verbose i.1 i.2).2.1 = true then 1 else 0) := by
  have key : ∀ (inputs : List (Str × FileObj)) (n : Nat), (∀ i ∈ inputs, ∀ e, (processOne verbose i.1 i.2).1 = .error e → e.isArchiveLoadFailed = true) →
      (processAll verbose inputs n).1 = .ok (if ∃ i ∈ inputs, (processOne verbose i.1 i.2).1 ≠ .ok () ∨ (processOne verbose i.1 i.2).2.1 = true then 1 else n) := by
    intro inputs
    induction inputs with
    | nil => intro n _; simp [processAll]
    | cons i t ih =>
      obtain ⟨name, f⟩ := i
      intro n h
      have ht := fun n => ih n (fun i hi => h i (by simp [hi]))
      have hi := h (name, f) (by simp)
      unfold processAll
      generalize hp : processOne verbose name f = y at hi
      obtain ⟨x, bad, out⟩ := y
      have hb : (∃ i ∈ (name, f) :: t, (processOne verbose i.1 i.2).1 ≠ .ok () ∨ (processOne verbose i.1 i.2).2.1 = true) ↔
          (x ≠ .ok () ∨ bad = true) ∨ ∃ i ∈ t, (processOne verbose i.1 i.2).1 ≠ .ok () ∨ (processOne verbose i.1 i.2).2.1 = true := by
        rw [exists_cons, hp]
      rw [one_if hb]
      cases x with
      | ok u =>
        simp only [ht, ne_eq, not_true_eq_false, false_or]
      | error e =>
        have := hi e rfl
        simp [ht, this]
  exact key inputs 0 h

/-- C57, order: for the exit value the order of the inputs does not matter. -/
theorem C57_order (verbose : Bool) {inputs inputs' : List (Str × FileObj)} (hp : inputs.Perm inputs') (h : ∀ i ∈ inputs, ∀ e, (processOne verbose i.1 i.2).1 = .error e → e.isArchiveLoadFailed = true) :
    (processAll verbose inputs 0).1 = (processAll verbose inputs' 0).1 := by
  rw [C57_exit verbose inputs h, C57_exit verbose inputs' (fun i hi => h i (hp.mem_iff.2 hi))]
  simp only [hp.mem_iff]

/-- C57: the exit value is 1 if some input could not be read or some verdict is a failure, and otherwise 0; what is printed are the failures, and the other records
if this is asked for.  Partial: inputs that cannot be read are here those that start with something that is no record, that have something behind the last record, or that are one gzip
member with more than one record; digests that are no texts of digests are left out, see `C57_crash`. -/
theorem C57_check_partial (L : LawfulGzip IsMember) (LC : LawfulCodecs IsCoded) (verbose : Bool) {m : Nat} (inputs : List (Str × FileObj × List (Located × Option Bool) × Bool))
    (h : ∀ i ∈ inputs, CheckInput L IsCoded m i.2.1 i.2.2.1 i.2.2.2) :
    ∃ out, CheckOutput verbose (inputs.map (fun i => (i.1, i.2.2))) out ∧ processAll verbose (inputs.map (fun i => (i.1, i.2.1))) 0 =
      (.ok (if ∃ i ∈ inputs, i.2.2.2 = true ∨ ∃ x ∈ i.2.2.1, x.2 = some false then 1 else 0), out) := by
  have key : ∀ (inputs : List (Str × FileObj × List (Located × Option Bool) × Bool)) (n : Nat), (∀ i ∈ inputs, CheckInput L IsCoded m i.2.1 i.2.2.1 i.2.2.2) →
      ∃ out, CheckOutput verbose (inputs.map (fun i => (i.1, i.2.2))) out ∧ processAll verbose (inputs.map (fun i => (i.1, i.2.1))) n =
        (.ok (if ∃ i ∈ inputs, i.2.2.2 = true ∨ ∃ x ∈ i.2.2.1, x.2 = some false then 1 else n), out) := by
    intro inputs
    induction inputs with
    | nil => intro n _; exact ⟨[], .nil, by simp [processAll]⟩
    | cons i t ih =>
      obtain ⟨name, f, xs, failed⟩ := i
      intro n h
      obtain ⟨lines, e, q1, hf, q2⟩ := processOne_spec L LC verbose name (h (name, f, xs, failed) (by simp))
      have ht := fun n => ih n (fun i hi => h i (by simp [hi]))
      have hb : (∃ i ∈ (name, f, xs, failed) :: t, i.2.2.2 = true ∨ ∃ x ∈ i.2.2.1, x.2 = some false) ↔ (failed = true ∨ xs.any (fun x => x.2 == some false) = true) ∨ ∃ i ∈ t, i.2.2.2 = true ∨ ∃ x ∈ i.2.2.1, x.2 = some false := by
        rw [exists_cons]; simp
      rw [one_if hb]
      cases failed with
      | true =>
        obtain ⟨out, o1, o2⟩ := ht 1
        refine ⟨_, .cons name xs true lines _ out q1 o1, ?_⟩
        rw [List.map_cons, processAll, q2]
        simp only [if_true, hf, o2, true_or]
        simp [checkReport]
        split <;> simp_all
      | false =>
        obtain ⟨out, o1, o2⟩ := ht (if xs.any (fun x => x.2 == some false) then 1 else n)
        refine ⟨_, .cons name xs false lines _ out q1 o1, ?_⟩
        rw [List.map_cons, processAll, q2]
        simp only [Bool.false_eq_true, if_false, false_or, o2]
        simp [checkReport]
        split <;> simp_all
  exact key inputs 0 h

/-! ## C74 -/

/-- C74, `warcio check`: a file that ends in the block of its last record is judged by the other records alone, whatever digests the last one has, if they are of a known kind: the exit value is 1 if some
verdict on one of the others is a failure, and otherwise 0. -/
theorem C74_check_partial (L : LawfulGzip IsMember) (LC : LawfulCodecs IsCoded) (verbose : Bool) (name : Str) {m : Nat} {f : FileObj} {xs : List (Located × Option Bool)} {ys : List (WarcRecord × Option StatusAndHeaders)}
    (hp : xs.map (·.1) = placements f.origin ys) (hy : ∀ y ∈ ys, y.1.Good) (hx : ∀ x ∈ xs, Checkable IsCoded m x.1.record x.2)
    {w : WarcRecord} (hw : w.Good) {part : Bytes} (hpart : part <+: w.block) (hne : part ≠ w.block) (h0 : part = [] → ¬ w.Http ∨ w.value (lit "WARC-Type") = some (lit "revisit"))
    (hu : DigestsUsable (w.value (lit "WARC-Type")) (w.value (lit "WARC-Segment-Number")) (w.value (lit "WARC-Block-Digest")) (w.value (lit "WARC-Payload-Digest")))
    (hk : ¬ UnknownDigest w.digests.1 ∧ ¬ UnknownDigest w.digests.2) (hc : ∃ d, ({ w with block := part } : WarcRecord).Content IsCoded m d) (hl : w.Http → 64 ≤ m)
    (hf : f.rest = ys.flatMap (·.1.bytes) ++ (w.head ++ part)) (hr : Reads f 16384 m) :
    (processAll verbose [(name, f)] 0).1 = .ok (if ∃ x ∈ xs, x.2 = some false then 1 else 0) := by
  have hin : CheckInput L IsCoded m f _ false := .cut f xs ys w part none hp hy hx hw ⟨⟨hpart, hne⟩, hu, hc, hl, by simp, by simp [hk.1, hk.2]⟩ h0 hf hr
  obtain ⟨out, -, k⟩ := C57_check_partial L LC verbose [(name, f, _, false)] (fun i hi => by rw [List.mem_singleton.1 hi]; exact hin)
  rw [List.map_singleton] at k
  rw [k]
  exact congrArg Except.ok (ite_congr (propext (by
    simp only [List.mem_singleton, exists_eq_left, Bool.false_eq_true, false_or, List.mem_append]
    constructor
    · rintro ⟨x, hx | rfl, h⟩
      · exact ⟨x, hx, h⟩
      · cases h
    · rintro ⟨x, hx, h⟩
      exact ⟨x, .inl hx, h⟩)) (fun _ => rfl) (fun _ => rfl))

/-- C74, `warcio check`: so is a file that ends before a block that should be HTTP. -/
theorem C74_check_dropped (L : LawfulGzip IsMember) (LC : LawfulCodecs IsCoded) (verbose : Bool) (name : Str) {m : Nat} {f : FileObj} {xs : List (Located × Option Bool)} {ys : List (WarcRecord × Option StatusAndHeaders)}
    (hp : xs.map (·.1) = placements f.origin ys) (hy : ∀ y ∈ ys, y.1.Good) (hx : ∀ x ∈ xs, Checkable IsCoded m x.1.record x.2)
    {w : WarcRecord} (hw : w.Good) (hh : w.Http) (ht : w.value (lit "WARC-Type") ≠ some (lit "revisit")) (hb : w.block ≠ [])
    (hu : DigestsUsable (w.value (lit "WARC-Type")) (w.value (lit "WARC-Segment-Number")) (w.value (lit "WARC-Block-Digest")) (w.value (lit "WARC-Payload-Digest")))
    (hf : f.rest = ys.flatMap (·.1.bytes) ++ w.head) (hr : Reads f 16384 m) :
    ∃ out, CheckOutput verbose [(name, xs, false)] out ∧ processAll verbose [(name, f)] 0 = (.ok (if ∃ x ∈ xs, x.2 = some false then 1 else 0), out) := by
  have hin : CheckInput L IsCoded m f _ false := .gone f xs ys w hp hy hx hw hu hh ht hb hf hr
  obtain ⟨out, k1, k⟩ := C57_check_partial L LC verbose [(name, f, _, false)] (fun i hi => by rw [List.mem_singleton.1 hi]; exact hin)
  refine ⟨out, k1, ?_⟩
  rw [List.map_singleton] at k
  rw [k]
  exact congrArg (fun n => (Except.ok n, out)) (ite_congr (propext (by simp only [List.mem_singleton, exists_eq_left, Bool.false_eq_true, false_or])) (fun _ => rfl) (fun _ => rfl))

/-- C74, `warcio check`: so is a compressed file that ends in its last member, whatever comes out of what there is of it: part of the block, nothing, or nothing behind the header block of a record that
should be HTTP. -/
theorem C74_check_gzip_partial (L : LawfulGzip IsMember) (LC : LawfulCodecs IsCoded) (verbose : Bool) (name : Str) {m : Nat} {f : FileObj} {xs : List (Located × Option Bool)} {ys : List (Bytes × WarcRecord × Option StatusAndHeaders)}
    (hp : xs.map (·.1) = placementsGz f.origin ys) (hy : ∀ y ∈ ys, y.2.1.Good ∧ IsMember y.1 y.2.1.bytes) (hx : ∀ x ∈ xs, Checkable IsCoded m x.1.record x.2)
    {w : WarcRecord} (hw : w.Good) {d p : Bytes}
    (hu : DigestsUsable (w.value (lit "WARC-Type")) (w.value (lit "WARC-Segment-Number")) (w.value (lit "WARC-Block-Digest")) (w.value (lit "WARC-Payload-Digest")))
    (hd : (∃ part, d = w.head ++ part ∧ part <+: w.block ∧ part ≠ w.block ∧ (part = [] → ¬ w.Http ∨ w.value (lit "WARC-Type") = some (lit "revisit")) ∧
        (¬ UnknownDigest w.digests.1 ∧ ¬ UnknownDigest w.digests.2) ∧ (∃ d, ({ w with block := part } : WarcRecord).Content IsCoded m d) ∧ (w.Http → 64 ≤ m)) ∨
      d = [] ∨ (d = w.head ∧ w.Http ∧ w.value (lit "WARC-Type") ≠ some (lit "revisit") ∧ w.block ≠ []))
    (hc : L.CutOff p d) (hf : f.rest = ys.flatMap (·.1) ++ p) (hr : ReadsGz f 16384 m (ys.map (·.1) ++ [p])) :
    (processAll verbose [(name, f)] 0).1 = .ok (if ∃ x ∈ xs, x.2 = some false then 1 else 0) := by
  rcases hd with ⟨part, rfl, d1, d2, d3, d4, d5, d6⟩ | hd
  · have hin : CheckInput L IsCoded m f _ false := .cutGz f xs ys w part p none hp hy hx hw ⟨⟨d1, d2⟩, hu, d5, d6, by simp, by simp [d4.1, d4.2]⟩ d3 hc hf hr
    obtain ⟨out, -, k⟩ := C57_check_partial L LC verbose [(name, f, _, false)] (fun i hi => by rw [List.mem_singleton.1 hi]; exact hin)
    rw [List.map_singleton] at k
    rw [k]
    exact congrArg Except.ok (ite_congr (propext (by
      simp only [List.mem_singleton, exists_eq_left, Bool.false_eq_true, false_or, List.mem_append]
      constructor
      · rintro ⟨x, hx | rfl, h⟩
        · exact ⟨x, hx, h⟩
        · cases h
      · rintro ⟨x, hx, h⟩
        exact ⟨x, .inl hx, h⟩)) (fun _ => rfl) (fun _ => rfl))
  · have hin : CheckInput L IsCoded m f _ false := .goneGz f xs ys w d p hp hy hx hw hu hd hc hf hr
    obtain ⟨out, -, k⟩ := C57_check_partial L LC verbose [(name, f, _, false)] (fun i hi => by rw [List.mem_singleton.1 hi]; exact hin)
    rw [List.map_singleton] at k
    rw [k]
    exact congrArg Except.ok (ite_congr (propext (by simp only [List.mem_singleton, exists_eq_left, Bool.false_eq_true, false_or])) (fun _ => rfl) (fun _ => rfl))

/-! ## C65 -/

theorem runOps_last {σ : Type} [PyStream σ] {multi : Bool} {last : Option PyErr} {e : Expected} {es : List Expected} {o : UserOp} (ho : o.Finishes) (hg : GzOps multi o) :
    ∀ (ops : List UserOp) {it : ArchiveIter σ} {left : Bytes}, Now multi last it e left es → (∀ x ∈ ops, GzOps multi x) → Now multi last (runOps it (ops ++ [o])).2 e [] es
  | [], it, left, h, _ => by
    obtain ⟨v, it', left', k1, k2, k3⟩ := h.op hg
    have : left' = [] := by
      rcases ho with rfl | rfl | rfl | rfl
      · obtain ⟨p, -, rfl, q, -, -⟩ := k2
        have := q none rfl
        simpa [Call.expect] using this
      · exact k2.2
      · exact k2.2
      · exact k2.2
    subst this
    simp only [List.nil_append, runOps, k1]
    exact k3
  | x :: ops, it, left, h, hx => by
    obtain ⟨v, it', left', k1, k2, k3⟩ := h.op (hx x (by simp))
    simp only [List.cons_append, runOps, k1]
    exact runOps_last ho hg ops k3 (fun y hy => hx y (by simp [hy]))

theorem verdicts_ready {σ : Type} [PyStream σ] {io : IterOpts} (hn : io.noRecordParse = false) (hk : io.checkDigests.isSome = true) {last : Option PyErr} {m : Nat} : ∀ (xs : List (Located × Option Bool)) (plan : List (List UserOp × UserOp)) {it : ArchiveIter σ},
    Ready false last it (xs.map (fun x => x.1.record.expected io m x.1.offset x.1.size)) → (∀ x ∈ xs, x.1.record.Verdict m x.2) → plan.length = xs.length →
    (∀ p ∈ plan, (∀ o ∈ p.1, o.nonneg) ∧ p.2.Finishes) →
    Each (fun x r => ∃ ps, r = .ok (x.2, ps) ∧ (x.2 = some false ↔ ps ≠ [])) xs (verdicts it plan) := by
  intro xs
  induction xs with
  | nil =>
    intro plan it _ _ hl _
    have : plan = [] := by simpa using hl
    subst this
    exact .nil
  | cons x xs ih =>
    obtain ⟨x, v⟩ := x
    intro plan it h hv hl hp
    obtain ⟨⟨ops, o⟩, plan, rfl⟩ : ∃ p plan', plan = p :: plan' := by cases plan with
      | nil => simp at hl
      | cons p t => exact ⟨p, t, rfl⟩
    obtain ⟨it', rec, left, k1, k2, k3, k4⟩ := Ready.record h
    obtain ⟨p1, p2⟩ := hp (ops, o) (by simp)
    have hcur : it'.current = some (withRaw rec it'.raw) := by rw [current_eq, k2]; rfl
    have hnow := runOps_last p2 ⟨by rcases p2 with rfl | rfl | rfl | rfl <;> first | trivial | (intro n hn; cases hn), fun h => by cases h⟩ ops k4
      (fun y hy => ⟨p1 y hy, fun h => by cases h⟩)
    have hver := verdict_now hnow hn hk (hv (x, v) (by simp)) rec ⟨by rw [k3.checker], by rw [k3.checker]⟩
    unfold verdicts
    rw [k1]
    dsimp only
    rw [hcur]
    have ih := ih plan hnow.ready (fun y hy => hv y (by simp [hy])) (by simpa using hl) (fun y hy => hp y (by simp [hy]))
    exact .cons ⟨(withRaw rec (runOps it' (ops ++ [o])).2.raw).digestChecker.problems, congrArg Except.ok (Prod.ext hver.1 rfl), hver.2⟩ ih

/-- C65: however the records are read, once a record has been read to its end `digest_checker.passed` is the verdict on its block and its payload, and problems are listed if and only if
it is a failure.  Left out: `'raise'`, see C25, and digests that are no texts of digests. -/
theorem C65_verdicts (L : LawfulGzip IsMember) {m : Nat} {f : FileObj} {xs : List (Located × Option Bool)} (ha : Archived IsMember m f (xs.map (·.1))) {io : IterOpts} {k : CheckKind}
    (hk : io.checkDigests = some k) (hr : k ≠ .raise) (hn : io.noRecordParse = false) (hh : io.verifyHttp = false)
    (hv : ∀ x ∈ xs, DigestsUsable (x.1.record.value (lit "WARC-Type")) (x.1.record.value (lit "WARC-Segment-Number")) (x.1.record.value (lit "WARC-Block-Digest")) (x.1.record.value (lit "WARC-Payload-Digest")) ∧ x.1.record.Verdict m x.2)
    {plan : List (List UserOp × UserOp)} (hl : plan.length = xs.length) (hp : ∀ p ∈ plan, (∀ o ∈ p.1, o.nonneg) ∧ p.2.Finishes) :
    ∃ it, openArchive f io = .ok it ∧ Each (fun x r => ∃ ps, r = .ok (x.2, ps) ∧ (x.2 = some false ↔ ps ≠ [])) xs (verdicts it plan) := by
  obtain ⟨it, k1, k2, k3⟩ := archived_ready L ha (io := io) hh (fun x hx => by
    obtain ⟨y, hy, rfl⟩ := List.mem_map.1 hx
    exact .inr ⟨by rw [hk]; intro h; cases h; exact hr rfl, (hv y hy).1⟩)
  rw [List.map_map] at k2
  exact ⟨it, k1, verdicts_ready hn (by rw [hk]; rfl) xs plan k2 (fun x hx => (hv x hx).2) hl hp⟩

end

section
open Toy

/-- A record with the block `ab` and this block digest. -/
def exSum (d : Str) : WarcRecord where
  head := utf8Encode (lit "WARC/1.1\r\nWARC-Type: metadata\r\nContent-Length: 2\r\nWARC-Block-Digest: " ++ d ++ lit "\r\n\r\n")
  headers := [(lit "WARC-Type", lit "metadata"), (lit "Content-Length", lit "2"), (lit "WARC-Block-Digest", d)]
  block := utf8Encode (lit "ab")
  sep := utf8Encode (lit "\r\n\r\n")

def exRight : Str := lit "sha1:02c3c3c3c3c3c3c3c3c3c3c3c3c3c3c3c3c3c3c3"

def exWrong : Str := lit "sha1:02c4c4c4c4c4c4c4c4c4c4c4c4c4c4c4c4c4c4c4"

/-- What the model does: a right digest, a wrong one, and none; and a file that is one member. -/
example : processAll true [(lit "a", { content := [exSum exRight, exSum exWrong, exInfo].flatMap WarcRecord.bytes }), (lit "b", exOne)] 0 =
    (.ok 1, [.file (lit "a"), .record 0 none (some (lit "metadata")) (some (lit "digest pass")) [],
      .record 124 none (some (lit "metadata")) none [.blockFailed exWrong],
      .record 248 none (some (lit "metadata")) (some (lit "no digest to check")) [],
      .file (lit "b"), .record 0 none (some (lit "response")) (some (lit "no digest to check")) [], .failure (lit "b")]) := by
  decide +kernel

example : processAll false [(lit "a", { content := [exSum exRight, exInfo].flatMap WarcRecord.bytes })] 0 = (.ok 0, []) := by
  decide +kernel

theorem exSum_good {d : Str} (hd : GoodHeader (lit "WARC-Block-Digest", d))
    (he : ({ statusline := [], protocol := lit "WARC/1.1", headers := (exSum d).headers } : StatusAndHeaders).toBytes = (exSum d).head) : (exSum d).Good where
  head := by
    have h := warcHead_toBytes (h := { statusline := [], protocol := lit "WARC/1.1", headers := (exSum d).headers })
      { status_trim := rfl
        status_lf := List.not_mem_nil
        headers := by
          intro h hh
          simp only [exSum, List.mem_cons, List.not_mem_nil, or_false] at hh
          rcases hh with rfl | rfl | rfl
          · exact ⟨⟨by decide, by decide, by decide, by decide, by decide⟩, by decide, by decide⟩
          · exact ⟨⟨by decide, by decide, by decide, by decide, by decide⟩, by decide, by decide⟩
          · exact hd
        protocol := .inl ⟨rfl, goodList_warc, (by show lit "WARC/1.1" ∈ Loader.warcParser.statuslist; decide)⟩ }
    rw [he] at h
    exact h
  length := ⟨lit "2", rfl, (parseInt_iff _ _).1 (by show parseInt (lit "2") = some ((utf8Encode (lit "ab")).length : Int); decide +kernel)⟩
  uri := fun h => by rcases h with h | h | h <;> exact absurd h (by show ¬ (some (lit "metadata") = some _); decide)
  sep := (by show BlankLines (utf8Encode (lit "\r\n\r\n")); exact ⟨by decide, ⟨utf8Encode (lit "\r\n\r"), by decide⟩, by decide⟩)

theorem exSum_not_http (d : Str) : ¬ (exSum d).Http := by
  rintro ⟨u, v, h, _⟩
  have : (exSum d).value (lit "WARC-Target-URI") = none := rfl
  rw [this] at h; cases h

theorem exSum_checkable {x : Bytes} {v : Str} {o : Bool} (hx : Encodes v x) (hl : x.length = 20) (ho : o = decide (x = sha1 (utf8Encode (lit "ab")))) (s : Bytes) (m : Nat) :
    Checkable toyCoded m { exSum (lit "sha1:" ++ v) with sep := s } (some o) where
  usable := by
    intro data
    refine ⟨?_, none, .absent⟩
    show ∃ o, Outcome data (some (lit "sha1" ++ ':' :: v)) o
    by_cases h : x = sha1 data
    · exact ⟨_, .good (lit "sha1") v sha1 (by decide) rfl (h ▸ hx)⟩
    · exact ⟨_, .bad (lit "sha1") v sha1 x (by decide) rfl hx (by rw [hl]; simp [sha1]) h⟩
  content := ⟨_, .whole (.inl (exSum_not_http _))⟩
  line := fun h => absurd h (exSum_not_http _)
  verdict := by
    refine ⟨_, some o, none, .whole (.inl (exSum_not_http _)), .compared _ (by show utf8Encode (lit "ab") ≠ []; decide) ?_, .absent, by cases o <;> decide⟩
    show Outcome (utf8Encode (lit "ab")) (some (lit "sha1" ++ ':' :: v)) (some o)
    by_cases h : x = sha1 (utf8Encode (lit "ab"))
    · rw [ho, decide_eq_true h]
      exact .good (lit "sha1") v sha1 (by decide) rfl (h ▸ hx)
    · rw [ho, decide_eq_false h]
      exact .bad (lit "sha1") v sha1 x (by decide) rfl hx (by rw [hl]; simp [sha1]) h

theorem exInfo_checkable (m : Nat) : Checkable toyCoded m exInfo none := by
  have hh : ¬ exInfo.Http := by
    rintro ⟨u, v, h, _⟩
    have : exInfo.value (lit "WARC-Target-URI") = none := by decide
    rw [this] at h; cases h
  exact ⟨fun _ => ⟨⟨none, .absent⟩, none, .absent⟩, ⟨_, .whole (.inl hh)⟩, fun h => absurd h hh, _, none, none, .whole (.inl hh), .compared _ (by decide +kernel) .absent, .absent, rfl⟩

theorem exRight_checkable (m : Nat) : Checkable toyCoded m (exSum exRight) (some true) :=
  exSum_checkable (x := sha1 (utf8Encode (lit "ab"))) (v := lit "02c3c3c3c3c3c3c3c3c3c3c3c3c3c3c3c3c3c3c3") (.b16 _ _ (by decide) (by decide +kernel)) (by decide) (by decide) (utf8Encode (lit "\r\n\r\n")) m

theorem exWrong_checkable_sep (s : Bytes) (m : Nat) : Checkable toyCoded m { exSum exWrong with sep := s } (some false) :=
  exSum_checkable (x := 2 :: List.replicate 19 0xc4) (v := lit "02c4c4c4c4c4c4c4c4c4c4c4c4c4c4c4c4c4c4c4") (.b16 _ _ (by decide) (by decide +kernel)) (by decide) (by decide) s m

theorem exWrong_checkable (m : Nat) : Checkable toyCoded m (exSum exWrong) (some false) := exWrong_checkable_sep (utf8Encode (lit "\r\n\r\n")) m

theorem exRight_good : (exSum exRight).Good := exSum_good ⟨⟨by decide, by decide, by decide, by decide, by decide⟩, by decide, by decide⟩ (by decide +kernel)

theorem exWrong_good : (exSum exWrong).Good := exSum_good ⟨⟨by decide, by decide, by decide, by decide, by decide⟩, by decide, by decide⟩ (by decide +kernel)

def exSums : FileObj := { content := [exSum exRight, exSum exWrong, exInfo].flatMap WarcRecord.bytes }

def exSumsOne : FileObj := { content := compress ([exSum exWrong, exInfo].flatMap WarcRecord.bytes) }

theorem exSums_archived : Archived IsMember 64 exSums (placements 0 [(exSum exRight, none), (exSum exWrong, none), (exInfo, none)]) := by
  refine .plain exSums _ ?_ rfl ⟨by decide, by simp [exSums], .inr ⟨rfl, by decide⟩⟩
  intro x hx
  simp only [List.mem_cons, List.not_mem_nil, or_false] at hx
  rcases hx with rfl | rfl | rfl
  · exact exRight_good
  · exact exWrong_good
  · exact exInfo_good

/-- The hypotheses of `C57_check_partial`: an archive with a right digest, a wrong digest and no digest, and a member with two records. -/
example : ∃ xs ys, (∀ i ∈ [(lit "a", exSums, xs, false), (lit "b", exSumsOne, ys, true)], CheckInput lawful toyCoded 64 i.2.1 i.2.2.1 i.2.2.2) ∧
    xs.map (·.2) = [some true, some false, none] ∧ ys.map (·.2) = [some false] := by
  refine ⟨(placements 0 [(exSum exRight, none), (exSum exWrong, none), (exInfo, none)]).zip [some true, some false, none], [(⟨exSum exWrong, 0, 0, none⟩, some false)], ?_, rfl, rfl⟩
  intro i hi
  simp only [List.mem_cons, List.not_mem_nil, or_false] at hi
  rcases hi with rfl | rfl
  · refine .archive _ _ exSums_archived ?_
    intro x hx
    simp only [placements, List.zip_cons_cons, List.zip_nil_right, List.mem_cons, List.not_mem_nil, or_false] at hx
    rcases hx with rfl | rfl | rfl
    · exact exRight_checkable _
    · exact exWrong_checkable _
    · exact exInfo_checkable _
  · refine .member exSumsOne (exSum exWrong) exInfo [] (some false) ?_ rfl (.fit (by decide) rfl (by decide +kernel)) (exWrong_checkable _)
    intro x hx
    simp only [List.mem_cons, List.not_mem_nil, or_false] at hx
    rcases hx with rfl | rfl
    · exact ⟨exWrong_good, (exWrong_checkable 0).usable⟩
    · exact ⟨exInfo_good, (exInfo_checkable 0).usable⟩

/-- A wrong digest, and a line behind the block. -/
def exWrongStray : WarcRecord := { exSum exWrong with sep := exLong.sep }

/-- The same with a line behind the block, with garbage behind that, and with no archive at all. -/
example : CheckInput lawful toyCoded 64 { content := exWrongStray.bytes ++ utf8Encode (lit "junk\r\nWARC/1.0\r\n") } [(⟨exWrongStray, 0, len (exWrongStray.head ++ exWrongStray.block), none⟩, some false)] true ∧
    CheckInput lawful toyCoded 64 { content := exWrongStray.bytes } [(⟨exWrongStray, 0, len (exWrongStray.head ++ exWrongStray.block), none⟩, some false)] false ∧
    CheckInput lawful toyCoded 64 { content := utf8Encode (lit "junk\r\nWARC/1.0\r\n") } [] true := by
  have hy : ∀ y ∈ [(exWrongStray, [utf8Encode (lit "tail\r\n")])], y.1.Whole ∧ Gap y.1.sep y.2 := by
    intro y hy
    rw [List.mem_singleton.1 hy]
    exact ⟨⟨exWrong_good.head, exWrong_good.length, exWrong_good.uri⟩, exLong_gap⟩
  have hx : ∀ x ∈ [((⟨exWrongStray, 0, len (exWrongStray.head ++ exWrongStray.block), none⟩ : Located), some false)], Checkable toyCoded 64 x.1.record x.2 := by
    intro x hx
    rw [List.mem_singleton.1 hx]
    exact exWrong_checkable_sep _ 64
  refine ⟨.stray _ _ [(exWrongStray, [utf8Encode (lit "tail\r\n")])] (utf8Encode (lit "junk\r\nWARC/1.0\r\n")) true rfl hy hx ?_ (.inr ⟨by simp, by decide +kernel, exJunk_warc, rfl⟩) ⟨by decide, by simp, .inr ⟨rfl, by decide⟩⟩,
    .stray _ _ [(exWrongStray, [utf8Encode (lit "tail\r\n")])] [] false rfl hy hx ?_ (.inl ⟨rfl, rfl⟩) ⟨by decide, by simp, .inr ⟨rfl, by decide⟩⟩,
    .unknown _ (by decide +kernel) exJunk_warc (by decide +kernel) (by decide +kernel) (by decide +kernel) ⟨by decide, by simp, .inr ⟨rfl, by decide⟩⟩⟩
  · rw [List.flatMap_singleton]; rfl
  · rw [List.flatMap_singleton, List.append_nil]; rfl

/-- The hypothesis of `C57_exit` and `C57_order`. -/
example : ∀ i ∈ [(lit "a", exSums), (lit "b", exOne), (lit "c", { content := utf8Encode (lit "what is this?\r\n") })], ∀ e, (processOne true i.1 i.2).1 = .error e → e.isArchiveLoadFailed = true := by
  have : ∀ i ∈ [(lit "a", exSums), (lit "b", exOne), (lit "c", { content := utf8Encode (lit "what is this?\r\n") })],
      (processOne true i.1 i.2).1 = .ok () ∨ (processOne true i.1 i.2).1 = .error .nonChunkedGzip ∨ (processOne true i.1 i.2).1 = .error .unknownFormat := by decide +kernel
  intro i hi e he
  rcases this i hi with h | h | h <;> rw [h] at he <;> cases he <;> rfl

/-- C57 fails for a digest header that is no encoding of a digest: `binascii.Error` is not caught, so that there is no exit value and the
inputs behind it are not looked at, though one of them has a wrong digest. -/
theorem C57_crash : processAll false [(lit "a", { content := (exSum (lit "sha1:A")).bytes }), (lit "b", exSums)] 0 = (.error .binascii, []) ∧
    processAll false [(lit "b", exSums)] 0 = (.ok 1, [.file (lit "b"), .record 124 none (some (lit "metadata")) none [.blockFailed exWrong]]) := by
  decide +kernel

/-- A right digest; and a wrong one, of whose block `ab` there is only `a`. -/
def exSumsCut : FileObj := { content := (exSum exRight).bytes ++ ((exSum exWrong).head ++ (exSum exWrong).block.take 1) }

theorem exWrong_known : ¬ UnknownDigest (exSum exWrong).digests.1 ∧ ¬ UnknownDigest (exSum exWrong).digests.2 := by
  constructor
  · rintro ⟨h, h1, -, h2⟩
    cases h1
    have := h2 (lit "sha1") (lit "02c4c4c4c4c4c4c4c4c4c4c4c4c4c4c4c4c4c4c4") rfl (by decide)
    cases this
  · rintro ⟨h, h1, -, h2⟩
    cases h1

/-- The hypotheses of `C74_check_partial`: here no verdict of the others is a failure. -/
example : ((placements 0 [(exSum exRight, none)]).zip [some true]).map (·.1) = placements exSumsCut.origin [(exSum exRight, none)] ∧ Checkable toyCoded 64 (exSum exRight) (some true) ∧ (exSum exWrong).Good ∧
    (exSum exWrong).block.take 1 <+: (exSum exWrong).block ∧ (exSum exWrong).block.take 1 ≠ (exSum exWrong).block ∧ (exSum exWrong).block.take 1 ≠ [] ∧
    (∃ d, ({ exSum exWrong with block := (exSum exWrong).block.take 1 } : WarcRecord).Content toyCoded 64 d) ∧
    exSumsCut.rest = [((exSum exRight, none) : WarcRecord × Option StatusAndHeaders)].flatMap (·.1.bytes) ++ ((exSum exWrong).head ++ (exSum exWrong).block.take 1) ∧ Reads exSumsCut 16384 64 :=
  ⟨rfl, exRight_checkable _, exWrong_good, List.take_prefix _ _, by decide +kernel, by decide +kernel, ⟨_, .whole (.inl (exSum_not_http exWrong))⟩, by rw [List.flatMap_singleton]; rfl,
    ⟨by decide, by simp [exSumsCut], .inr ⟨rfl, by decide⟩⟩⟩

/-- C74: what is wrong with the last record is not found out when it is cut off: `check` says that there is nothing wrong. -/
theorem C74_unnoticed :
    processAll true [(lit "a", { content := (exSum exWrong).head ++ (exSum exWrong).block })] 0 =
      (.ok 1, [.file (lit "a"), .record 0 none (some (lit "metadata")) none [.blockFailed exWrong]]) ∧
    processAll true [(lit "a", exSumsCut)] 0 =
      (.ok 0, [.file (lit "a"), .record 0 none (some (lit "metadata")) (some (lit "digest pass")) [],
        .record 124 none (some (lit "metadata")) (some (lit "digest present but not checked")) []]) := by
  decide +kernel

/-- The same, each record in a member, of which the second is cut off: the hypotheses of `C74_check_gzip_partial`. -/
def exSumsCutGz : FileObj := { content := compress (exSum exRight).bytes ++ (compress (exSum exWrong).bytes).take 240 }

example : ((placementsGz 0 [(compress (exSum exRight).bytes, exSum exRight, none)]).zip [some true]).map (·.1) = placementsGz exSumsCutGz.origin [(compress (exSum exRight).bytes, exSum exRight, none)] ∧
    IsMember (compress (exSum exRight).bytes) (exSum exRight).bytes ∧
    lawful.CutOff ((compress (exSum exWrong).bytes).take 240) ((exSum exWrong).head ++ (exSum exWrong).block.take 1) ∧
    exSumsCutGz.rest = [((compress (exSum exRight).bytes, exSum exRight, none) : Bytes × WarcRecord × Option StatusAndHeaders)].flatMap (·.1) ++ (compress (exSum exWrong).bytes).take 240 ∧
    ReadsGz exSumsCutGz 16384 64 ([((compress (exSum exRight).bytes, exSum exRight, none) : Bytes × WarcRecord × Option StatusAndHeaders)].map (·.1) ++ [(compress (exSum exWrong).bytes).take 240]) := by
  refine ⟨rfl, rfl, ?_, by rw [List.flatMap_singleton]; rfl, ⟨by decide, .inr ⟨rfl, ?_⟩⟩⟩
  · have e : (go .h0 ((compress (exSum exWrong).bytes).take 240)).2 = (exSum exWrong).head ++ (exSum exWrong).block.take 1 := by decide +kernel
    rw [← e]
    exact ex_cutOff 240 (by decide) _
  · intro z hz
    simp only [List.map_cons, List.map_nil, List.cons_append, List.nil_append, List.mem_cons, List.not_mem_nil, or_false] at hz
    rcases hz with rfl | rfl <;> exact steady_of_le (by decide +kernel)

/-- C74: nor is it found out in a compressed file. -/
theorem C74_unnoticed_gzip :
    processAll true [(lit "a", exSumsCutGz)] 0 =
      (.ok 0, [.file (lit "a"), .record 0 none (some (lit "metadata")) (some (lit "digest pass")) [],
        .record 251 none (some (lit "metadata")) (some (lit "digest present but not checked")) []]) := by
  decide +kernel

/-- The hypotheses of `C74_check_dropped`. -/
example : ((placements 0 [(exSum exWrong, none)]).zip [some false]).map (·.1) = placements exSumsCut.origin [(exSum exWrong, none)] ∧ Checkable toyCoded 64 (exSum exWrong) (some false) ∧ (exSum exWrong).Good ∧
    exHttp.Good ∧ exHttp.Http ∧ exHttp.value (lit "WARC-Type") ≠ some (lit "revisit") ∧ exHttp.block ≠ [] ∧
    DigestsUsable (exHttp.value (lit "WARC-Type")) (exHttp.value (lit "WARC-Segment-Number")) (exHttp.value (lit "WARC-Block-Digest")) (exHttp.value (lit "WARC-Payload-Digest")) :=
  ⟨rfl, exWrong_checkable _, exWrong_good, exHttp_good, exHttp_http, by decide, by decide +kernel, fun _ => ⟨⟨none, by
    have : exHttp.value (lit "WARC-Block-Digest") = none := by decide
    rw [this]; exact .absent⟩, none, by
    have : exHttp.value (lit "WARC-Payload-Digest") = none := by decide
    rw [this]; exact .absent⟩⟩

/-- The hypotheses of `C65_verdicts`. -/
example : ∃ xs : List (Located × Option Bool), Archived IsMember 64 exSums (xs.map (·.1)) ∧ xs.map (·.2) = [some true, some false, none] ∧
    (∀ x ∈ xs, DigestsUsable (x.1.record.value (lit "WARC-Type")) (x.1.record.value (lit "WARC-Segment-Number")) (x.1.record.value (lit "WARC-Block-Digest")) (x.1.record.value (lit "WARC-Payload-Digest")) ∧ x.1.record.Verdict 64 x.2) ∧
    ∀ p ∈ ([([.call (.read (some 1)), .call (.readline none)], .offset), ([], .call (.read none)), ([.errors], .toEnd)] : List (List UserOp × UserOp)), (∀ o ∈ p.1, o.nonneg) ∧ UserOp.Finishes p.2 := by
  refine ⟨(placements 0 [(exSum exRight, none), (exSum exWrong, none), (exInfo, none)]).zip [some true, some false, none], exSums_archived, rfl, ?_, ?_⟩
  · intro x hx
    simp only [placements, List.zip_cons_cons, List.zip_nil_right, List.mem_cons, List.not_mem_nil, or_false] at hx
    rcases hx with rfl | rfl | rfl
    · exact ⟨(exRight_checkable 64).usable, (exRight_checkable 64).verdict⟩
    · exact ⟨(exWrong_checkable 64).usable, (exWrong_checkable 64).verdict⟩
    · exact ⟨(exInfo_checkable 64).usable, (exInfo_checkable 64).verdict⟩
  · intro p hp
    simp only [List.mem_cons, List.not_mem_nil, or_false] at hp
    rcases hp with rfl | rfl | rfl
    · exact ⟨by decide, .inr (.inr (.inl rfl))⟩
    · exact ⟨by decide, .inl rfl⟩
    · exact ⟨by decide, .inr (.inl rfl)⟩

/-- What the model does. -/
example : (openArchive exSums { checkDigests := some .log }).map (fun it => verdicts it [([.call (.read (some 1)), .call (.readline none)], .offset), ([], .call (.read none)), ([.errors], .toEnd)]) =
    .ok [.ok (some true, []), .ok (some false, [.blockFailed exWrong]), .ok (none, [])] := by
  decide +kernel

end

end Warcio.Props
