import Verif.Proofs.IterCut
import Verif.Proofs.IterGz

/-! # A compressed archive that ends within its last member -/

set_option linter.unusedSectionVars false

namespace Warcio

open Loader BufReader

namespace ArchiveIter

/-- What there is of a member is read like a member. -/
theorem _root_.Warcio.LawfulGzip.CutOff.holds [Zlib] {IsMember : Bytes → Bytes → Prop} {L : LawfulGzip IsMember} {p o : Bytes} (h : L.CutOff p o) : L.Holds p o [] where
  feed := by
    intro hist hne hpre
    rw [List.append_nil] at hpre
    obtain ⟨z, d, hz, hpz⟩ := h.part
    obtain ⟨o1, r1, _, _, r4⟩ := L.member hz hne (.inl (hpre.trans hpz))
    refine ⟨o1, r1, ?_, ?_, ?_⟩
    · obtain ⟨t, ht⟩ := hpre
      by_cases h0 : t = []
      · subst h0
        rw [List.append_nil] at ht
        have := h.out hist hne ht
        rw [r1] at this
        cases this
        exact List.prefix_refl _
      · have := h.out (hist ++ [t]) (by intro ch hc; rcases List.mem_append.1 hc with hc | hc; exact hne ch hc; rw [List.mem_singleton.1 hc]; exact h0) (by rw [List.flatten_append, List.flatten_singleton]; exact ht)
        rw [Codec.run_snoc, r1] at this
        simp only at this
        cases hc : L.codec.out hist t with
        | none => rw [hc] at this; cases this
        | some o2 => rw [hc] at this; cases this; exact List.prefix_append _ _
    · intro hp
      have e : hist.flatten = p := (hpre.eq_of_length (Nat.le_antisymm hpre.length_le hp.length_le))
      have := h.out hist hne e
      rw [r1] at this
      cases this
      rfl
    · rw [r4, List.drop_of_length_le (hpre.trans hpz).length_le, List.drop_of_length_le hpre.length_le]
  ratio := h.ratio

section
variable {σ : Type} [Zlib] [PyStream σ] [Hashlib] [PyUni]
variable {V : σ → Bytes → Prop} {IsMember : Bytes → Bytes → Prop} {T : Int} {bs : Nat} {Q : Bytes → Prop}

/-- `read_to_end` in the last record. -/
theorem readToEnd_gzCut (L : LawfulGzip IsMember) (hV : ShortRead V) {it : ArchiveIter σ} {left sep : Bytes}
    (hr : it.record.isSome = true) (hm : it.memberInfo = none) (hv : it.raw.View (GzAt L V T bs Q []) left sep) (hsep : White sep) :
    ∃ raw', it.readToEnd = (.ok (), ({ it with raw := raw', nextLine := none, offset := T, memberInfo := some (it.offset, T - it.offset) } : ArchiveIter σ)) ∧
      GzAt L V T bs Q [] raw'.under [] ∧ raw'.checkerAt [] = it.raw.checkerAt left ∧ (raw'.Spent ∨ raw'.View (GzAt L V T bs Q []) [] []) := by
  have hW := gzAt_exact (T := T) (bs := bs) (Q := Q) L hV []
  obtain ⟨raw1, d1, d2, d3⟩ := drain_spec hW (PyStream.bound it.raw + 2) hv (by have := hv.bound hW; omega)
  have hu := d2.under
  rw [List.nil_append] at hu
  obtain ⟨r2, hc, e2, r1, w1, w2⟩ := blank_white hW (PyStream.bound raw1.under + 2) sep true 0 (it := { it with raw := raw1 }) hu hsep (by have := hW.bound hu; omega)
  obtain ⟨r2', y1, y2, -⟩ := gz_readline_last L (Tells.short hV) w1
  have hend : GzEnd L (Tells V T) (Sizes bs Q) [] r2 := by
    have : PyStream.readline r1 none = (.ok [], r2') := y1
    rw [w2] at this
    cases this
    exact y2
  rw [Int.zero_add] at hc
  have hdn : r2.decompressor.isNone = false := by obtain ⟨hist, hd⟩ := hend.decomp; rw [hd]; rfl
  refine ⟨raw1.setUnder r2, ?_, by rw [RawStream.under_setUnder]; exact e2, (RawStream.checkerAt_setUnder _ _ _).trans d3, ?_⟩
  rotate_left
  · by_cases hs : sep = []
    · subst hs; exact .inr (view_setUnder d2 e2)
    · exact .inl (RawStream.spent_setUnder (RawStream.spent_of_view d2 hs) _)
  unfold readToEnd
  have h1 : it.record.isNone = false := by cases h : it.record <;> simp_all
  rw [h1, hm, d1]
  simp only [Option.isSome_none, Bool.false_eq_true, if_false]
  unfold consumeBlanklines
  rw [show ({ it with raw := raw1 } : ArchiveIter σ).reader = raw1.under from rfl, hc]
  simp only [position, reader, setReader, RawStream.under_setUnder, hdn, Bool.false_eq_true, if_false, Int.sub_zero]
  rw [gzEnd_position hend]
  simp [len]

/-- The last record has been handed out. -/
structure GzCutAfter (L : LawfulGzip IsMember) (V : σ → Bytes → Prop) (T : Int) (bs : Nat) (Q : Bytes → Prop) (io : IterOpts) (m : Nat) (K : Option Format → Prop) (sep : Bytes) (it : ArchiveIter σ) (e : Expected) (left : Bytes) : Prop where
  base : Calm io K false [] it
  silent : e.before = [] ∧ e.behind = []
  offered : it.record.isSome = true
  line : e.line = m
  size : e.size = T - e.off
  white : White sep
  ended : (it.memberInfo = none ∧ it.raw.View (GzAt L V T bs Q []) left sep ∧ it.offset = e.off) ∨
    (left = [] ∧ it.memberInfo = some (e.off, e.size) ∧ it.nextLine = none ∧ GzAt L V T bs Q [] it.reader [] ∧ (it.raw.Spent ∨ it.raw.View (GzAt L V T bs Q []) [] []))

variable {io : IterOpts} {m : Nat} {K : Option Format → Prop} {sep : Bytes} {L : LawfulGzip IsMember}

theorem GzCutAfter.toEnd (hV : ShortRead V) {it : ArchiveIter σ} {e : Expected} {left : Bytes} (h : GzCutAfter L V T bs Q io m K sep it e left) :
    ∃ it', it.readToEnd = (.ok (), it') ∧ GzCutAfter L V T bs Q io m K sep it' e [] ∧ it'.memberInfo = some (e.off, e.size) ∧ it'.gen = it.gen ∧
      it'.raw.checkerAt [] = it.raw.checkerAt left := by
  rcases h.ended with ⟨h4, h5, h6⟩ | ⟨rfl, h4, _⟩
  · obtain ⟨raw', k1, k2, k5, k6⟩ := readToEnd_gzCut L hV h.offered h4 h5 h.white
    have e1 : ((it.offset, T - it.offset) : Int × Int) = (e.off, e.size) := by rw [h6, h.size]
    rw [e1] at k1
    exact ⟨_, k1, ⟨⟨h.base.opts, h.base.known, h.base.closed, h.base.calm, h.base.more, h.base.quiet, h.base.fmt⟩, h.silent, h.offered, h.line, h.size, h.white,
      .inr ⟨rfl, rfl, rfl, k2, k6⟩⟩, rfl, rfl, k5⟩
  · refine ⟨it, ?_, h, h4, rfl, rfl⟩
    unfold readToEnd
    have h1 : it.record.isNone = false := by have := h.offered; cases h : it.record <;> simp_all
    rw [h1, h4]
    rfl

/-- Reading it. -/
theorem GzCutAfter.op (hV : ShortRead V) (hX : LineLaw (GzAt L V T bs Q [] (σ := σ)) m) {it : ArchiveIter σ} {e : Expected} {left : Bytes} (h : GzCutAfter L V T bs Q io m K sep it e left)
    {op : UserOp} (hop : op.nonneg) : ∃ v it' left', op.run it = (.ok v, it') ∧ OpOk e it.ended left op v left' ∧ GzCutAfter L V T bs Q io m K sep it' e left' ∧ it'.gen = it.gen ∧
      it'.raw.checkerAt left' = it.raw.checkerAt left ∧ it'.ended = (op.ends || it.ended) := by
  have hW := gzAt_exact (T := T) (bs := bs) (Q := Q) L hV []
  cases op with
  | call c =>
    rcases h.ended with ⟨h4, h5, h6⟩ | ⟨rfl, h4, h5, h7, h8 | h8⟩
    · obtain ⟨p, b', raw', k1, k2, k3, _, _, k5, k6⟩ := h5.call hW hop
      refine ⟨.bytes p, { it with raw := raw' }, b', by simp only [UserOp.run, k1]; rfl, ⟨p, rfl, k2, k6, ?_, ?_⟩,
        ⟨⟨h.base.opts, h.base.known, h.base.closed, h.base.calm, h.base.more, h.base.quiet, h.base.fmt⟩, h.silent, h.offered, h.line, h.size, h.white, .inl ⟨h4, k3, h6⟩⟩, rfl, h5.checkerAt hop k1 k2, rfl⟩
      · rintro n rfl hm0 hle
        rw [h.line] at hle
        exact h5.lineAny hW hX hm0 hle hop k1
      · intro hp
        rcases k5 hp with h0 | h0
        · left; rw [h0] at k2; exact (List.append_eq_nil_iff.1 k2.symm).2
        · exact .inr h0
    · obtain ⟨raw', k1, k2, k3, k4⟩ := RawStream.spent_call h8 hop
      refine ⟨.bytes [], { it with raw := raw' }, [], by simp only [UserOp.run, k1]; rfl, ⟨[], rfl, rfl, ?_, ?_, fun _ => .inl rfl⟩,
        ⟨⟨h.base.opts, h.base.known, h.base.closed, h.base.calm, h.base.more, h.base.quiet, h.base.fmt⟩, h.silent, h.offered, h.line, h.size, h.white,
          .inr ⟨rfl, h4, h5, by show GzAt L V T bs Q [] raw'.under []; rw [k3]; exact h7, .inl k2⟩⟩, rfl, k4, rfl⟩
      · rintro n rfl
        cases n <;> simp [Call.expect]
      · rintro n rfl hm0
        cases hm0
    · obtain ⟨p, b', raw', k1, k2, k3, _, _, k5, k6⟩ := h8.call hW hop
      obtain ⟨rfl, rfl⟩ := List.append_eq_nil_iff.1 k2.symm
      have hu := k3.under
      refine ⟨.bytes [], { it with raw := raw' }, [], by simp only [UserOp.run, k1]; rfl, ⟨[], rfl, rfl, k6, ?_, fun _ => .inl rfl⟩,
        ⟨⟨h.base.opts, h.base.known, h.base.closed, h.base.calm, h.base.more, h.base.quiet, h.base.fmt⟩, h.silent, h.offered, h.line, h.size, h.white,
          .inr ⟨rfl, h4, h5, hu, .inr k3⟩⟩, rfl, h8.checkerAt hop k1 k2, rfl⟩
      rintro n rfl hm0
      cases hm0
  | errors =>
    refine ⟨e.warned it.ended, it, left, ?_, ⟨rfl, rfl⟩, h, rfl, rfl, rfl⟩
    simp only [UserOp.run, errCount, h.base.quiet, Expected.warned, h.silent.1, h.silent.2, ite_self]
  | toEnd =>
    obtain ⟨it', k1, k2, k3, k4, k6⟩ := h.toEnd hV
    exact ⟨.unit, it', [], by simp only [UserOp.run, k1]; rfl, ⟨rfl, rfl⟩, k2, k4, k6, by unfold ArchiveIter.ended; rw [k3]; rfl⟩
  | offset =>
    obtain ⟨it', k1, k2, k3, k4, k6⟩ := h.toEnd hV
    obtain ⟨it2, m1, m2⟩ : ∃ it2, it.getRecordOffset = (.ok e.off, it2) ∧ it2 = it' := by
      unfold getRecordOffset getMember
      by_cases hm : it.memberInfo.isNone = true
      · rw [if_pos hm, k1]; exact ⟨it', by simp [memberField, k3], rfl⟩
      · rw [if_neg hm]
        have hsome : it.memberInfo.isSome = true := by cases h : it.memberInfo <;> simp_all
        have hr : it.record.isNone = false := by have := h.offered; cases h : it.record <;> simp_all
        have : it.readToEnd = (.ok (), it) := by unfold readToEnd; rw [hr, hsome]; rfl
        rw [this] at k1
        cases k1
        exact ⟨it, by simp [memberField, k3], rfl⟩
    subst m2
    exact ⟨.int e.off, it2, [], by simp only [UserOp.run, m1]; rfl, ⟨rfl, rfl⟩, k2, k4, k6, by unfold ArchiveIter.ended; rw [k3]; rfl⟩
  | size =>
    obtain ⟨it', k1, k2, k3, k4, k6⟩ := h.toEnd hV
    obtain ⟨it2, m1, m2⟩ : ∃ it2, it.getRecordLength = (.ok e.size, it2) ∧ it2 = it' := by
      unfold getRecordLength getMember
      by_cases hm : it.memberInfo.isNone = true
      · rw [if_pos hm, k1]; exact ⟨it', by simp [memberField, k3], rfl⟩
      · rw [if_neg hm]
        have hsome : it.memberInfo.isSome = true := by cases h : it.memberInfo <;> simp_all
        have hr : it.record.isNone = false := by have := h.offered; cases h : it.record <;> simp_all
        have : it.readToEnd = (.ok (), it) := by unfold readToEnd; rw [hr, hsome]; rfl
        rw [this] at k1
        cases k1
        exact ⟨it, by simp [memberField, k3], rfl⟩
    subst m2
    exact ⟨.int e.size, it2, [], by simp only [UserOp.run, m1]; rfl, ⟨rfl, rfl⟩, k2, k4, k6, by unfold ArchiveIter.ended; rw [k3]; rfl⟩

/-- Records in members, the last one `c` in `p`, which perhaps is not all of a member. -/
def GzCutTop (L : LawfulGzip IsMember) (V : σ → Bytes → Prop) (T : Int) (bs : Nat) (Q : Bytes → Prop) (io : IterOpts) (m : Nat) (K : Option Format → Prop) (p : Bytes) (c : Expected) (it : ArchiveIter σ) (es : List Expected) : Prop :=
  (∃ es0, es = es0 ++ [c] ∧ GzTop L V T bs Q false io m K p it es0) ∨ (es = [] ∧ GzTop L V T bs Q false io m K [] it [])

def GzCutStep (L : LawfulGzip IsMember) (V : σ → Bytes → Prop) (T : Int) (bs : Nat) (Q : Bytes → Prop) (io : IterOpts) (m : Nat) (K : Option Format → Prop) (p sep : Bytes) (c : Expected) (it : ArchiveIter σ) (e : Expected) (left : Bytes) (es : List Expected) : Prop :=
  (∃ es0, es = es0 ++ [c] ∧ GzAfter L V T bs Q false io m K p it e left es0) ∨ (es = [] ∧ GzCutAfter L V T bs Q io m K sep it e left)

theorem gzCut_machine (hV : ShortRead V) (hX : ∀ rest, LineLaw (GzAt L V T bs Q rest (σ := σ)) m) {i : Item} {n : Int} {c : Expected} {p : Bytes}
    (hi : CutOk io m K i n c.shows c.judged) (hp : L.Holds p i.bytes []) (hq : Q p) (hne : p ≠ []) (hc : c.off = T - len p) (hz : c.size = len p) (hl : c.line = m) (hw : c.before = [] ∧ c.behind = []) :
    Machine (GzOps false) (GzCutTop L V T bs Q io m K p c) (GzCutStep L V T bs Q io m K p i.sep c (σ := σ)) where
  load := by
    rintro it e es (⟨es0, h1, h2⟩ | ⟨h1, _⟩) fuel
    · cases es0 with
      | cons e0 es0 =>
        rw [List.cons_append] at h1
        obtain ⟨rfl, rfl⟩ := List.cons.inj h1
        obtain ⟨it', rec, left, k1, k2, k3, k4, k5, k6, k7⟩ := (gz_machine L hV hX).load h2 fuel
        exact ⟨it', rec, left, k1, k2, k3, .inl ⟨es0, rfl, k4⟩, k5, k6, k7⟩
      | nil =>
        obtain ⟨rfl, rfl⟩ := List.cons.inj h1
        rcases h2.view with ⟨_, _, _, _, _, _, _, h1, _⟩ | ⟨_, _, hb, hn, ho, hg⟩ | ⟨_, _, h0, _⟩
        · cases h1
        · have hgz := hg i.bytes hp hq
          obtain ⟨raw, rec, kf, left, k1, k2, k3, k4, k5, k6, k8⟩ := nextRecord_cut (gzAt_exact L hV []) (hX []) hi hb.opts hb.known hb.closed (.inl ⟨hn, hgz⟩)
          refine ⟨({ it with raw := raw, record := some rec, memberInfo := none, knownFormat := kf, loads := it.loads + 1, gen := .yielded } : ArchiveIter σ),
            rec, left, ?_, rfl, k3, .inr ⟨rfl, ?_⟩, rfl, k6, rfl⟩
          · unfold genLoop
            rw [k1]
            simp only [hb.calm, Bool.false_eq_true, if_false]
          · exact ⟨⟨hb.opts, k2, hb.closed, hb.calm, hb.more, hb.quiet, fun ha _ h => by cases h; exact k8 ha⟩, hw, rfl, hl, by rw [hz, hc]; omega, hi.2.2.1, .inl ⟨rfl, k4, by show it.offset = _; rw [ho, hc]⟩⟩
        · exact absurd h0 hne
    · cases h1
  op := by
    rintro it e left es (⟨es0, h1, h2⟩ | ⟨h1, h2⟩) op hop
    · obtain ⟨v, it', left', k1, k2, k3, k4, k5, k6⟩ := (gz_machine L hV hX).op h2 hop
      exact ⟨v, it', left', k1, k2, .inl ⟨es0, h1, k3⟩, k4, k5, k6⟩
    · obtain ⟨v, it', left', k1, k2, k3, k4, k5, k6⟩ := h2.op hV (hX []) hop.1
      exact ⟨v, it', left', k1, k2, .inr ⟨h1, k3⟩, k4, k5, k6⟩
  after := by
    rintro it e left es (⟨es0, h1, h2⟩ | ⟨h1, h2⟩)
    · obtain ⟨it2, j1, j2, j3⟩ := (gz_machine L hV hX).after h2
      exact ⟨it2, j1, .inl ⟨es0, h1, j2⟩, j3⟩
    · obtain ⟨it', k1, k2, k3, k4, _⟩ := h2.toEnd hV
      rcases k2.ended with ⟨h4, _⟩ | ⟨_, h4, h5, hu, _⟩
      · rw [h4] at k3; cases k3
      · obtain ⟨-, u2, u3⟩ := gz_unused_nil L hu
        refine ⟨{ it' with raiseInvalidGzip := true }, ?_, .inr ⟨h1, ⟨.inr (by rw [show ({ it' with raiseInvalidGzip := true } : ArchiveIter σ).memberInfo = it'.memberInfo from rfl, h4]; rfl), .inr (.inr ⟨⟨k2.base.opts, k2.base.known, k2.base.closed, rfl, k2.base.more, k2.base.quiet, k2.base.fmt⟩, rfl, rfl, [], .inl ⟨rfl, rfl⟩, .inl ⟨h5, hu⟩⟩)⟩⟩, k2.offered⟩
        unfold afterRecord
        rw [k1]
        simp only [k2.base.closed, Bool.false_eq_true, if_false, u2, if_true, u3, setReader_self, k2.base.more]
  bound := by
    rintro it e left es (⟨es0, h1, h2⟩ | ⟨h1, h2⟩)
    · exact (gz_machine L hV hX).bound h2
    · rcases h2.ended with ⟨_, h5, _⟩ | ⟨rfl, _⟩
      · exact h5.bound (gzAt_exact L hV [])
      · exact Nat.zero_le _

theorem gzCut_stops (hV : ShortRead V) {p : Bytes} {c : Expected} : Stops .stopIteration (GzCutTop L V T bs Q io m K p c (σ := σ)) := by
  rintro it (⟨es0, h1, _⟩ | ⟨_, h⟩) fuel
  · cases es0 <;> cases h1
  · exact gz_stops L hV it h fuel

/-- Nothing of a record is there that could be handed out. -/
theorem gzGone_stops {p d : Bytes} (h0 : p ≠ []) (hp : L.Holds p d []) (hq : Q p)
    (hload : ∀ kf id, K kf → ∀ {s : BufReader σ}, GzAt L V T bs Q [] s d → ∃ s', parseRecordStream (io.load kf id) s none = (.error .eofError, s') ∧ GzAt L V T bs Q [] s' []) :
    Stops .stopIteration (GzTop L V T bs Q false io m K p (σ := σ)) := by
  intro it h fuel
  rcases h.view with ⟨_, _, _, _, _, _, _, h1, _⟩ | ⟨_, _, hb, hn, ho, hg⟩ | ⟨_, _, h1, _⟩
  · cases h1
  · have e : it.loadOpts = io.load it.knownFormat (it.opts.ids it.loads) := by rw [← hb.opts]; rfl
    obtain ⟨s1, k1, k2⟩ := hload it.knownFormat (it.opts.ids it.loads) hb.known (hg d hp hq)
    rw [← e] at k1
    refine stop_eof hb.closed h.offered (by rw [hn]; exact k1) (fun _ => (gz_unused_nil L k2).2.2) fuel
  · exact absurd h1 h0

end
end ArchiveIter
end Warcio
