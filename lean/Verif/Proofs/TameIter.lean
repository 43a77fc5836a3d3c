import Verif.Proofs.TameLoader
import Verif.Proofs.Iterate

/-!
# Iterating over any file ends
-/

set_option linter.unusedSectionVars false

namespace Warcio

theorem Ends.mono {n m : Nat} {steps : List Step} (h : Ends n steps) (hm : n ≤ m) : Ends m steps := by
  induction h generalizing m with
  | cut n => exact .cut _
  | stop n e rest h1 h2 => exact .stop _ _ _ h1 h2
  | record n rec vs steps h1 _ ih =>
    obtain ⟨k, rfl⟩ : ∃ k, m = k + 1 := ⟨m - 1, by omega⟩
    exact .record _ _ _ _ h1 (ih (by omega))

namespace ArchiveIter
variable {σ : Type} [Zlib] [TameZlib] [PyStream σ] [Tame σ]

theorem under_setUnder {τ : Type} (r : RawStream τ) (s : τ) : (r.setUnder s).under = s := by
  cases r <;> rfl

/-- What is left to read for the iterator; a line that was read ahead counts. -/
def left (it : ArchiveIter σ) : Nat :=
  pot it.reader + (if it.memberInfo.isSome then (it.nextLine.getD []).length else 0)

/-- A line that was read ahead is not empty, and belongs to a record. -/
structure Sound (it : ArchiveIter σ) : Prop where
  line : ∀ l, it.nextLine = some l → l ≠ []
  first : it.record = none → it.nextLine = none
  start : it.gen = .start → it.record = none

/-- Only the reader changed. -/
structure Same (it it' : ArchiveIter σ) : Prop where
  record : it'.record = it.record
  member : it'.memberInfo = it.memberInfo
  line : it'.nextLine = it.nextLine
  gen : it'.gen = it.gen
  closed : it'.closed = it.closed
  empty : it'.emptyRecord = it.emptyRecord

theorem Same.refl (it : ArchiveIter σ) : Same it it := ⟨rfl, rfl, rfl, rfl, rfl, rfl⟩

theorem Same.trans {a b c : ArchiveIter σ} (h1 : Same a b) (h2 : Same b c) : Same a c :=
  ⟨h2.1.trans h1.1, h2.2.trans h1.2, h2.3.trans h1.3, h2.4.trans h1.4, h2.5.trans h1.5, h2.6.trans h1.6⟩

theorem Same.sound {a b : ArchiveIter σ} (h : Same a b) (ha : Sound a) : Sound b :=
  ⟨by rw [h.line]; exact ha.line, by rw [h.record, h.line]; exact ha.first, by rw [h.gen, h.record]; exact ha.start⟩

theorem Same.left {a b : ArchiveIter σ} (h : Same a b) (hp : pot b.reader ≤ pot a.reader) : b.left ≤ a.left := by
  unfold ArchiveIter.left; rw [h.member, h.line]; omega

theorem setReader_same (it : ArchiveIter σ) (r : BufReader σ) : Same it (it.setReader r) ∧ (it.setReader r).reader = r :=
  ⟨⟨rfl, rfl, rfl, rfl, rfl, rfl⟩, under_setUnder _ _⟩

theorem blankLoop_uses (fuel : Nat) (first : Bool) (n : Int) (it : ArchiveIter σ) (hf : pot it.reader < fuel) :
    Same it (blankLoop fuel first n it).2 ∧ (blankLoop fuel first n it).1 ≠ .error .outOfFuel ∧ pot (blankLoop fuel first n it).2.reader ≤ pot it.reader ∧
    (∀ l k, (blankLoop fuel first n it).1 = .ok (some l, k) → l ≠ [] ∧ pot (blankLoop fuel first n it).2.reader + l.length ≤ pot it.reader) := by
  induction fuel generalizing first n it with
  | zero => omega
  | succ fuel ih =>
    unfold blankLoop
    generalize hx : PyStream.readline it.reader none = x
    obtain ⟨x, r⟩ := x
    obtain ⟨h1, h2⟩ := tame_readline hx
    obtain ⟨s1, s2⟩ := setReader_same it r
    cases x with
    | error e =>
      refine ⟨s1, (fun h => h2 (by cases h; rfl)), by simp only; rw [s2]; omega, (fun l k h => by cases h)⟩
    | ok line =>
      simp only [outSize] at h1
      dsimp only
      split
      · exact ⟨s1, (fun h => by cases h), by simp only; rw [s2]; omega, (fun l k h => by cases h)⟩
      · rename_i hl
        have hl : 0 < line.length := by cases line <;> simp_all
        have hgo : ∀ it1 : ArchiveIter σ, Same it it1 → it1.reader = r → ∀ k,
            Same it (blankLoop fuel false k it1).2 ∧ (blankLoop fuel false k it1).1 ≠ .error .outOfFuel ∧ pot (blankLoop fuel false k it1).2.reader ≤ pot it.reader ∧
            (∀ l k', (blankLoop fuel false k it1).1 = .ok (some l, k') → l ≠ [] ∧ pot (blankLoop fuel false k it1).2.reader + l.length ≤ pot it.reader) := by
          intro it1 hs hr k
          obtain ⟨i1, i2, i3, i4⟩ := ih false k it1 (by rw [hr]; omega)
          rw [hr] at i3
          refine ⟨hs.trans i1, i2, by omega, fun l k' h => ?_⟩
          obtain ⟨j1, j2⟩ := i4 l k' h
          rw [hr] at j2
          exact ⟨j1, by omega⟩
        split
        · exact hgo _ s1 s2 _
        · split
          · refine hgo ?_ ?_ ?_ _
            · exact ⟨rfl, rfl, rfl, rfl, rfl, rfl⟩
            · exact s2
          · refine ⟨s1, (fun h => by cases h), by simp only; rw [s2]; omega, fun l k h => ?_⟩
            cases h
            refine ⟨by intro h; rw [h] at hl; simp at hl, ?_⟩
            simp only; rw [s2]; exact h1

variable [Hashlib]

theorem drainLoop_uses (fuel : Nat) (it : ArchiveIter σ) (hf : pot it.reader < fuel) :
    Same it (drainLoop fuel it).2 ∧ (drainLoop fuel it).1 ≠ .error .outOfFuel ∧ pot (drainLoop fuel it).2.reader ≤ pot it.reader := by
  induction fuel generalizing it with
  | zero => omega
  | succ fuel ih =>
    unfold drainLoop
    generalize hx : PyStream.read it.raw (some 16384) = x
    obtain ⟨x, raw⟩ := x
    obtain ⟨h1, h2⟩ := tame_read hx
    rw [pot_raw, pot_raw] at h1
    have hr : ∀ it : ArchiveIter σ, ({ it with raw := raw } : ArchiveIter σ).reader = raw.under := fun _ => rfl
    have hr0 : it.raw.under = it.reader := rfl
    rw [hr0] at h1
    cases x with
    | error e => exact ⟨⟨rfl, rfl, rfl, rfl, rfl, rfl⟩, (fun h => h2 (by cases h; rfl)), by simp only; rw [hr]; omega⟩
    | ok b =>
      simp only [outSize] at h1
      dsimp only
      split
      · exact ⟨⟨rfl, rfl, rfl, rfl, rfl, rfl⟩, (fun h => by cases h), by simp only; rw [hr]; omega⟩
      · rename_i hb
        have hb : 0 < b.length := by cases b <;> simp_all
        obtain ⟨i1, i2, i3⟩ := ih { it with raw := raw } (by rw [hr]; omega)
        rw [hr] at i3
        exact ⟨Same.trans (b := { it with raw := raw }) ⟨rfl, rfl, rfl, rfl, rfl, rfl⟩ i1, i2, by omega⟩

/-- An operation on the iterator that does not go to the next record. -/
structure Stays (it it' : ArchiveIter σ) : Prop where
  left : it'.left ≤ it.left
  gen : it'.gen = it.gen
  closed : it'.closed = it.closed
  empty : it'.emptyRecord = it.emptyRecord
  record : it'.record = it.record
  sound : Sound it → Sound it'

theorem Stays.refl (it : ArchiveIter σ) : Stays it it := ⟨Nat.le_refl _, rfl, rfl, rfl, rfl, id⟩

theorem Stays.trans {a b c : ArchiveIter σ} (h1 : Stays a b) (h2 : Stays b c) : Stays a c :=
  ⟨Nat.le_trans h2.1 h1.1, h2.2.trans h1.2, h2.3.trans h1.3, h2.4.trans h1.4, h2.5.trans h1.5, h2.6 ∘ h1.6⟩

theorem Same.stays {a b : ArchiveIter σ} (h : Same a b) (hp : pot b.reader ≤ pot a.reader) : Stays a b :=
  ⟨h.left hp, h.gen, h.closed, h.empty, h.record, h.sound⟩

theorem readToEnd_uses (it : ArchiveIter σ) : Stays it it.readToEnd.2 ∧ it.readToEnd.1 ≠ .error .outOfFuel ∧
    (∀ u, it.readToEnd.1 = .ok u → it.record = none ∨ it.readToEnd.2.memberInfo.isSome) ∧ pot it.readToEnd.2.reader ≤ pot it.reader := by
  unfold readToEnd
  split
  · rename_i h
    exact ⟨Stays.refl _, (fun h => by cases h), (fun _ _ => .inl (by simpa using h)), Nat.le_refl _⟩
  · rename_i hrec
    split
    · rename_i h
      exact ⟨Stays.refl _, (fun h => by cases h), (fun _ _ => .inr h), Nat.le_refl _⟩
    · rename_i hmem
      have hb := Tame.bound it.raw
      obtain ⟨d1, d2, d3⟩ := drainLoop_uses (PyStream.bound it.raw + 2) it (by
        have : pot it.raw = pot it.reader := rfl
        omega)
      generalize drainLoop (PyStream.bound it.raw + 2) it = x at *
      obtain ⟨x, it1⟩ := x
      simp only at d1 d2 d3
      cases x with
      | error e => exact ⟨d1.stays d3, (fun h => d2 (by cases h; rfl)), (fun u h => by cases h), d3⟩
      | ok u =>
        dsimp only
        unfold consumeBlanklines
        have hb1 := Tame.bound it1.reader
        obtain ⟨b1, b2, b3, b4⟩ := blankLoop_uses (PyStream.bound it1.reader + 2) true 0 it1 (by omega)
        generalize blankLoop (PyStream.bound it1.reader + 2) true 0 it1 = y at *
        obtain ⟨y, it2⟩ := y
        simp only at b1 b2 b3 b4
        have hs := d1.trans b1
        cases y with
        | error e => exact ⟨hs.stays (by omega), (fun h => b2 (by cases h; rfl)), (fun u h => by cases h), by simp only; omega⟩
        | ok nk =>
          obtain ⟨nx, k⟩ := nk
          have hm : it.memberInfo.isSome = false := by simpa using hmem
          refine ⟨⟨?_, hs.gen, hs.closed, hs.empty, hs.record, ?_⟩, (fun h => by cases h), (fun _ _ => .inr rfl), ?_⟩
          · show pot it2.reader + (nx.getD []).length ≤ _
            unfold ArchiveIter.left
            rw [hm]
            cases nx with
            | none => simp; omega
            | some l => have := (b4 l k rfl).2; simp; omega
          · intro h0
            refine ⟨?_, ?_, (hs.sound h0).start⟩
            · intro l hl
              simp only at hl
              subst hl
              exact (b4 l k rfl).1
            · intro h
              simp only [hs.record] at h
              rw [h] at hrec
              simp at hrec
          · show pot it2.reader ≤ _
            omega

theorem getMember_uses (f : Int × Int → Int) (it : ArchiveIter σ) : Stays it (getMember f it).2 ∧ (getMember f it).1 ≠ .error .outOfFuel := by
  have hm : ∀ it : ArchiveIter σ, memberField f it ≠ .error .outOfFuel := by
    intro it
    unfold memberField
    split <;> exact (fun h => by cases h)
  unfold getMember
  split
  · obtain ⟨h1, h2, _⟩ := readToEnd_uses it
    generalize it.readToEnd = x at *
    obtain ⟨x, it1⟩ := x
    cases x with
    | error e => exact ⟨h1, (fun h => h2 (by cases h; rfl))⟩
    | ok u => exact ⟨h1, hm _⟩
  · exact ⟨Stays.refl _, hm _⟩

variable [PyUni]

theorem op_uses (it : ArchiveIter σ) (o : UserOp) : Stays it (o.run it).2 ∧ (o.run it).1 ≠ .error .outOfFuel := by
  have hmap : ∀ {α β : Type} {x : Except PyErr α} {f : α → β}, x ≠ .error .outOfFuel → x.map f ≠ .error .outOfFuel := by
    intro α β x f hx h
    cases x with
    | ok v => simp [Except.map] at h
    | error e => simp [Except.map] at h; exact hx (by rw [h])
  cases o with
  | call c =>
    unfold UserOp.run
    dsimp only
    have hc : pot (c.run it.raw).2 ≤ pot it.raw ∧ (c.run it.raw).1 ≠ .error .outOfFuel := by
      cases c with
      | read n => exact ⟨by have := (Tame.read it.raw n).1; exact Nat.le_trans (Nat.le_add_right _ _) this, (Tame.read it.raw n).2⟩
      | readline n => exact ⟨by have := (Tame.readline it.raw n).1; exact Nat.le_trans (Nat.le_add_right _ _) this, (Tame.readline it.raw n).2⟩
    exact ⟨Same.stays (b := { it with raw := (c.run it.raw).2 }) ⟨rfl, rfl, rfl, rfl, rfl, rfl⟩ hc.1, hmap hc.2⟩
  | offset => exact ⟨(getMember_uses _ it).1, hmap (getMember_uses _ it).2⟩
  | size => exact ⟨(getMember_uses _ it).1, hmap (getMember_uses _ it).2⟩
  | toEnd => exact ⟨(readToEnd_uses it).1, hmap (readToEnd_uses it).2.1⟩
  | errors => exact ⟨Stays.refl _, (fun h => by cases h)⟩

theorem runOps_uses (ops : List UserOp) (it : ArchiveIter σ) : Stays it (runOps it ops).2 ∧ ∀ v ∈ (runOps it ops).1, v ≠ .error .outOfFuel := by
  induction ops generalizing it with
  | nil => exact ⟨Stays.refl _, (fun v hv => by cases hv)⟩
  | cons o os ih =>
    unfold runOps
    dsimp only
    obtain ⟨h1, h2⟩ := op_uses it o
    obtain ⟨i1, i2⟩ := ih (o.run it).2
    refine ⟨h1.trans i1, ?_⟩
    intro v hv
    rcases List.mem_cons.1 hv with rfl | hv
    · exact h2
    · exact i2 v hv

/-- Everything of the current record has been read. -/
def AtEnd (it : ArchiveIter σ) : Prop := it.record = none ∨ it.memberInfo.isSome

theorem nextRecord_uses (it : ArchiveIter σ) (ha : AtEnd it) (hs : Sound it) :
    (∀ u, it.nextRecord.1 = .ok u → it.nextRecord.2.left + 1 ≤ it.left ∧ (∀ l, it.nextRecord.2.nextLine = some l → l ≠ []) ∧ it.nextRecord.2.record ≠ none) ∧
    (∀ e, it.nextRecord.1 = .error e → e ≠ .outOfFuel ∧ Same it it.nextRecord.2 ∧ pot it.nextRecord.2.reader ≤ pot it.reader) := by
  unfold nextRecord
  split
  · exact ⟨(fun u h => by cases h), (fun e h => by cases h; exact ⟨(fun h => by cases h), Same.refl _, Nat.le_refl _⟩)⟩
  · obtain ⟨h1, h2⟩ := Loader.parseRecordStream_uses it.loadOpts it.reader (it.nextLine.map .bytes)
    generalize Loader.parseRecordStream it.loadOpts it.reader (it.nextLine.map .bytes) = x at *
    obtain ⟨x, r⟩ := x
    have hp := h1.pot
    simp only at hp
    cases x with
    | error e =>
      refine ⟨(fun u h => by cases h), fun e' h => ?_⟩
      cases h
      refine ⟨(fun h => h1.fuel (by rw [h])), ⟨rfl, rfl, rfl, rfl, rfl, rfl⟩, ?_⟩
      show pot (it.raw.setUnder r).under ≤ _
      rw [under_setUnder]
      exact hp
    | ok rec =>
      refine ⟨fun u h => ?_, (fun e h => by cases h)⟩
      have hpd := h2 rec r rfl
      dsimp only
      constructor
      · show pot rec.rawStream.under + 0 + 1 ≤ _
        unfold ArchiveIter.left
        cases hn : it.nextLine with
        | none =>
          rw [hn] at hpd
          have : pot rec.rawStream.under + 1 ≤ pot it.reader := hpd
          simp; omega
        | some l =>
          rw [hn] at hpd
          have h3 : pot rec.rawStream.under ≤ pot it.reader := hpd.2
          have h4 : 0 < l.length := List.length_pos_iff.2 (hs.line l hn)
          rcases ha with ha | ha
          · rw [hs.first ha] at hn; cases hn
          · rw [ha]; simp; omega
      · exact ⟨hs.line, (fun h => by cases h)⟩

theorem afterRecord_uses (it : ArchiveIter σ) (hs : Sound it) :
    it.afterRecord.1 ≠ .error .outOfFuel ∧ (∀ b, it.afterRecord.1 = .ok b → it.afterRecord.2.left ≤ it.left ∧ Sound it.afterRecord.2 ∧ AtEnd it.afterRecord.2 ∧
      it.afterRecord.2.gen = it.gen ∧ pot it.afterRecord.2.reader ≤ pot it.reader ∧
      (b = true → it.emptyRecord = true → pot it.afterRecord.2.reader < pot it.reader)) := by
  unfold afterRecord
  obtain ⟨h1, h2, h3, h4⟩ := readToEnd_uses it
  generalize it.readToEnd = x at *
  obtain ⟨x, it1⟩ := x
  simp only at h1 h2 h3 h4
  cases x with
  | error e => exact ⟨(fun h => h2 (by cases h; rfl)), (fun b h => by cases h)⟩
  | ok u =>
    have hat : AtEnd it1 := by
      rcases h3 u rfl with h | h
      · left; rw [h1.record, h]
      · exact .inr h
    have hso := h1.sound hs
    dsimp only
    split
    · exact ⟨(fun h => by cases h), (fun b h => by cases h)⟩
    · split
      · obtain ⟨m1, m2, m3, m4, m5⟩ := BufReader.readNextMember_base it1.reader
        obtain ⟨s1, s2⟩ := setReader_same it1 it1.reader.readNextMember.2
        have hpm : pot it1.reader.readNextMember.2 ≤ pot it1.reader := by
          show BufReader.potB _ ≤ BufReader.potB _
          unfold BufReader.potB; rw [m4]; omega
        have hst : Stays it1 (it1.setReader it1.reader.readNextMember.2) := s1.stays (by rw [s2]; exact hpm)
        have hat2 : AtEnd (it1.setReader it1.reader.readNextMember.2) := by
          unfold AtEnd; rw [s1.record, s1.member]; exact hat
        have hl := hst.left
        have hl1 := h1.left
        split
        · rename_i hm
          have hlt : pot it1.reader.readNextMember.2 < pot it1.reader := by
            show BufReader.potB _ < BufReader.potB _
            have := m2 hm
            unfold BufReader.potB; rw [m4]; omega
          refine ⟨(fun h => by cases h), fun b h => ⟨by simp only; omega, hst.sound hso, hat2, hst.gen.trans h1.gen, ?_, fun _ _ => ?_⟩⟩
          · simp only; rw [s2]; omega
          · simp only; rw [s2]; omega
        · split
          · refine ⟨(fun h => by cases h), fun b h => ⟨by simp only; omega, hst.sound hso, hat2, hst.gen.trans h1.gen, ?_, (fun hb => by cases h; cases hb)⟩⟩
            simp only; rw [s2]; omega
          · rename_i he
            refine ⟨(fun h => by cases h), fun b h => ⟨?_, ?_, hat2, hst.gen.trans h1.gen, ?_, fun _ he' => ?_⟩⟩
            · exact Nat.le_trans hl hl1
            · have := hst.sound hso
              exact ⟨this.line, this.first, this.start⟩
            · show pot (it1.setReader it1.reader.readNextMember.2).reader ≤ _
              rw [s2]; omega
            · exact absurd (by rw [s1.empty, h1.empty]; exact he') he
      · refine ⟨(fun h => by cases h), fun b h => ⟨h1.left, hso, hat, h1.gen, h4, fun hb he => ?_⟩⟩
        cases h
        rw [h1.empty, he] at hb
        cases hb

theorem genLoop_uses (fuel : Nat) (it : ArchiveIter σ) (ha : AtEnd it) (hs : Sound it) (hf : pot it.reader < fuel) :
    (genLoop fuel it).1 ≠ .error .outOfFuel ∧
    (∀ u, (genLoop fuel it).1 = .ok u → (genLoop fuel it).2.left + 1 ≤ it.left ∧ Sound (genLoop fuel it).2 ∧ (genLoop fuel it).2.gen = .yielded) ∧
    (∀ e, (genLoop fuel it).1 = .error e → (genLoop fuel it).2.gen = .finished) := by
  induction fuel generalizing it with
  | zero => omega
  | succ fuel ih =>
    unfold genLoop
    obtain ⟨n1, n2⟩ := nextRecord_uses it ha hs
    generalize it.nextRecord = x at *
    obtain ⟨x, it1⟩ := x
    simp only at n1 n2
    cases x with
    | ok u =>
      obtain ⟨n3, n4, n5⟩ := n1 u rfl
      dsimp only
      split
      · exact ⟨(fun h => by cases h), (fun u h => by cases h), (fun e h => rfl)⟩
      · refine ⟨(fun h => by cases h), (fun u h => ⟨n3, ⟨n4, (fun h => absurd h n5), (fun h => by cases h)⟩, rfl⟩), (fun e h => by cases h)⟩
    | error e =>
      obtain ⟨e1, e2, e3⟩ := n2 e rfl
      by_cases he : e = .eofError
      · subst he
        dsimp only
        have hs1 : Sound { it1 with emptyRecord := true } := by
          have := e2.sound hs
          exact ⟨this.line, this.first, this.start⟩
        obtain ⟨a1, a2⟩ := afterRecord_uses { it1 with emptyRecord := true } hs1
        generalize afterRecord { it1 with emptyRecord := true } = y at *
        obtain ⟨y, it2⟩ := y
        simp only at a1 a2
        cases y with
        | error e => exact ⟨(fun h => a1 (by cases h; rfl)), (fun u h => by cases h), (fun e h => rfl)⟩
        | ok b =>
          cases b with
          | false => exact ⟨(fun h => by cases h), (fun u h => by cases h), (fun e h => rfl)⟩
          | true =>
            obtain ⟨b1, b2, b3, b4, b5, b6⟩ := a2 true rfl
            have hlt := b6 rfl trivial
            have hr : ({ it1 with emptyRecord := true } : ArchiveIter σ).reader = it1.reader := rfl
            rw [hr] at hlt b5
            have hl : ({ it1 with emptyRecord := true } : ArchiveIter σ).left = it1.left := rfl
            rw [hl] at b1
            obtain ⟨i1, i2, i3⟩ := ih it2 b3 b2 (by omega)
            have := e2.left e3
            refine ⟨i1, fun u h => ?_, i3⟩
            obtain ⟨j1, j2, j3⟩ := i2 u h
            exact ⟨by show (genLoop fuel it2).2.left + 1 ≤ _; omega, j2, j3⟩
      · refine ⟨?_, ?_, ?_⟩
        · cases e <;> first | exact absurd rfl he | exact absurd rfl e1 | exact (fun h => by cases h)
        · intro u h
          cases e <;> first | exact absurd rfl he | cases h
        · intro e' h
          cases e <;> first | exact absurd rfl he | rfl

theorem next_uses (it : ArchiveIter σ) (hs : Sound it) :
    it.next.1 ≠ .error .outOfFuel ∧
    (∀ u, it.next.1 = .ok u → it.next.2.left + 1 ≤ it.left ∧ Sound it.next.2) ∧
    (∀ e, it.next.1 = .error e → it.next.2.gen = .finished) := by
  unfold next
  cases hg : it.gen with
  | finished => exact ⟨(fun h => by cases h), (fun u h => by cases h), (fun e h => hg)⟩
  | start =>
    obtain ⟨i1, i2, i3⟩ := genLoop_uses (PyStream.bound it.reader + 2) it (.inl (hs.start hg)) hs
      (by have := Tame.bound it.reader; omega)
    exact ⟨i1, (fun u h => ⟨(i2 u h).1, (i2 u h).2.1⟩), i3⟩
  | yielded =>
    dsimp only
    obtain ⟨a1, a2⟩ := afterRecord_uses it hs
    generalize it.afterRecord = y at *
    obtain ⟨y, it2⟩ := y
    simp only at a1 a2
    cases y with
    | error e => exact ⟨(fun h => a1 (by cases h; rfl)), (fun u h => by cases h), (fun e h => rfl)⟩
    | ok b =>
      cases b with
      | false => exact ⟨(fun h => by cases h), (fun u h => by cases h), (fun e h => rfl)⟩
      | true =>
        obtain ⟨b1, b2, b3, b4, b5, b6⟩ := a2 true rfl
        obtain ⟨i1, i2, i3⟩ := genLoop_uses (PyStream.bound it2.reader + 2) it2 b3 b2
          (by have := Tame.bound it2.reader; omega)
        refine ⟨i1, fun u h => ?_, i3⟩
        obtain ⟨j1, j2, j3⟩ := i2 u h
        exact ⟨by show (genLoop _ it2).2.left + 1 ≤ _; omega, j2⟩

theorem iterate_ends (plan : List (List UserOp)) (it : ArchiveIter σ) (hs : Sound it) : Ends it.left (iterate it plan) := by
  induction plan generalizing it with
  | nil => exact .cut _
  | cons ops plan ih =>
    unfold iterate
    obtain ⟨n1, n2, n3⟩ := next_uses it hs
    generalize it.next = x at *
    obtain ⟨x, it1⟩ := x
    simp only at n1 n2 n3
    cases x with
    | error e =>
      dsimp only
      rw [finished_iterate plan (n3 e rfl)]
      exact .stop _ _ _ (fun h => n1 (by rw [h])) (by simp)
    | ok u =>
      obtain ⟨k1, k2⟩ := n2 u rfl
      dsimp only
      obtain ⟨r1, r2⟩ := runOps_uses ops it1
      have := r1.left
      obtain ⟨m, hm⟩ : ∃ m, it.left = ((runOps it1 ops).2.left + m) + 1 := ⟨it.left - 1 - (runOps it1 ops).2.left, by omega⟩
      rw [hm]
      exact .record _ _ _ _ r2 (Ends.mono (ih _ (r1.sound k2)) (Nat.le_add_right _ _))

end ArchiveIter

theorem openArchive_left [Zlib] [TameZlib] {f : FileObj} {io : IterOpts} {bs : Nat} {kf : Option Format} {it : ArchiveIter Source}
    (h : openArchive f io bs kf = .ok it) : ArchiveIter.Sound it ∧ it.left = (Zlib.ratio + 1) * f.rest.length := by
  unfold openArchive ArchiveIter.new at h
  split at h
  · rename_i r hr
    cases h
    refine ⟨⟨(fun l h => by cases h), (fun _ => rfl), (fun _ => rfl)⟩, ?_⟩
    unfold ArchiveIter.left
    show pot r + 0 = _
    have hp : pot (Source.of f) = f.rest.length := by
      unfold Source.of
      split <;> rfl
    unfold BufReader.new at hr
    dsimp only at hr
    split at hr
    · cases hr
      show 0 + (BufReader.credit (some { kind := .gzip }) + (Zlib.ratio + 1) * (0 + pot (Source.of f))) + 0 = _
      have hc : BufReader.credit (some { kind := .gzip }) = 0 := by
        unfold BufReader.credit; simp
      rw [hc, hp]
      simp
    · cases hr
  · cases h

end Warcio
