import Verif.Model.WarcWriter

/-!
# What the builder and the writer need of a payload stream
-/

set_option linter.unusedSectionVars false

namespace Warcio

open Builder

/-- `holds s d`: reading `s` to its end gives `d`; and if `tell` and `seek` work, they bring it back. -/
class Holding (σ : Type) [PyFile σ] where
  holds : σ → Bytes → Prop
  sends : ∀ {s : σ} {d : Bytes}, holds s d → ∃ bufs s', iterAll s = (bufs, .ok (), s') ∧ bufs.flatten = d
  rewind : ∀ {s : σ} {d : Bytes} {p : Int} {s1 : σ}, holds s d → PyFile.tellE s = .ok p → PyFile.seek s p = .ok s1 →
    holds s1 d ∧ ∀ bufs x s2, iterAll s1 = (bufs, x, s2) → ∃ s3, PyFile.seek s2 p = .ok s3 ∧ holds s3 d

export Holding (holds)

theorem FileObj.read_block (f : FileObj) : ∃ b f', PyStream.read f (some 16384) = (.ok b, f') ∧ f'.content = f.content ∧ f'.seekable = f.seekable ∧
    f.rest = b ++ f'.rest ∧ (b = [] → f.rest = []) := by
  have key : ∀ k : Nat, f.rest = f.rest.take k ++ f.content.drop (f.pos + (f.rest.take k).length) := by
    intro k
    have : f.content.drop (f.pos + (f.rest.take k).length) = f.rest.drop k := by
      unfold FileObj.rest
      rw [← List.drop_drop]
      have hl : ((f.content.drop f.pos).take k).length = min k (f.content.drop f.pos).length := List.length_take
      rw [hl]
      by_cases h : k ≤ (f.content.drop f.pos).length
      · rw [Nat.min_eq_left h]
      · rw [Nat.min_eq_right (by omega), List.drop_of_length_le (Nat.le_refl _), List.drop_of_length_le (by omega)]
    rw [this, List.take_append_drop]
  have nil : ∀ k : Nat, 0 < k → f.rest.take k = [] → f.rest = [] := by
    intro k hk h
    rcases List.take_eq_nil_iff.1 h with h | h
    · omega
    · exact h
  cases hc : f.caps with
  | nil =>
    refine ⟨f.rest.take 16384, { f with pos := f.pos + (f.rest.take 16384).length }, ?_, rfl, rfl, key _, nil _ (by omega)⟩
    show FileObj.read f (some 16384) = _
    simp only [FileObj.read, hc]
    rfl
  | cons c cs =>
    refine ⟨f.rest.take (max 1 (min 16384 c)), { f with pos := f.pos + (f.rest.take (max 1 (min 16384 c))).length, caps := cs }, ?_, rfl, rfl, key _,
      nil _ (by omega)⟩
    show FileObj.read f (some 16384) = _
    simp only [FileObj.read, hc]
    rfl

theorem FileObj.iterStream (fuel : Nat) (f : FileObj) (hf : f.rest.length < fuel) :
    ∃ bufs f', Builder.iterStream fuel f = (bufs, .ok (), f') ∧ bufs.flatten = f.rest ∧ f'.content = f.content ∧ f'.seekable = f.seekable ∧ f'.rest = [] := by
  induction fuel generalizing f with
  | zero => omega
  | succ fuel ih =>
    obtain ⟨b, f1, h1, h2, h3, h4, h5⟩ := f.read_block
    unfold Builder.iterStream
    rw [h1]
    dsimp only
    split
    · rename_i hb
      have hb : b = [] := by simpa using hb
      refine ⟨[], f1, rfl, (h5 hb).symm ▸ rfl, h2, h3, ?_⟩
      rw [h5 hb, hb] at h4
      simpa using h4.symm
    · rename_i hb
      have hb : b ≠ [] := by simpa using hb
      have := List.length_pos_iff.2 hb
      have hl : f.rest.length = b.length + f1.rest.length := by rw [h4, List.length_append]
      obtain ⟨bufs, f2, i1, i2, i3, i4, i5⟩ := ih f1 (by omega)
      rw [i1]
      exact ⟨b :: bufs, f2, rfl, by rw [List.flatten_cons, i2, ← h4], i3.trans h2, i4.trans h3, i5⟩

theorem FileObj.iterAll (f : FileObj) :
    ∃ bufs f', Builder.iterAll f = (bufs, .ok (), f') ∧ bufs.flatten = f.rest ∧ f'.content = f.content ∧ f'.seekable = f.seekable ∧ f'.rest = [] :=
  FileObj.iterStream _ f (by show f.rest.length < f.rest.length + 2; omega)

instance : Holding FileObj where
  holds f d := f.rest = d
  sends := by
    intro f d h
    obtain ⟨bufs, f', h1, h2, _⟩ := f.iterAll
    exact ⟨bufs, f', h1, h2.trans h⟩
  rewind := by
    intro f d p s1 h ht hs
    have hseek : f.seekable = true := by
      cases hb : f.seekable with
      | true => rfl
      | false => simp [PyFile.tellE, hb] at ht
    have hp : p = (f.pos : Int) := by
      simp [PyFile.tellE, hseek] at ht; exact ht.symm
    subst hp
    have hneg : ¬ ((f.pos : Int) < 0) := by omega
    simp only [PyFile.seek, if_neg hneg, FileObj.seek, hseek, if_true, Int.toNat_natCast] at hs
    cases hs
    refine ⟨h, ?_⟩
    intro bufs x s2 hi
    obtain ⟨bufs', f', h1, h2, h3, h4, _⟩ := FileObj.iterAll f
    obtain ⟨content, pos, caps, seekable⟩ := f
    dsimp only at *
    subst hseek
    rw [h1] at hi
    cases hi
    refine ⟨{ s2 with pos := pos }, ?_, ?_⟩
    · simp only [PyFile.seek, if_neg hneg, FileObj.seek, h4, if_true, Int.toNat_natCast]
    · show s2.content.drop pos = d
      rw [h3]; exact h

section
variable {σ : Type} [PyFile σ]

theorem iterStream_own (fuel : Nat) (s : σ) : Builder.iterStream fuel (RecStream.own s) =
    ((Builder.iterStream fuel s).1, (Builder.iterStream fuel s).2.1, .own (Builder.iterStream fuel s).2.2) := by
  induction fuel generalizing s with
  | zero => rfl
  | succ fuel ih =>
    unfold Builder.iterStream
    have : PyStream.read (RecStream.own s) (some 16384) = ((PyStream.read s (some 16384)).1, .own (PyStream.read s (some 16384)).2) := rfl
    rw [this]
    generalize PyStream.read s (some 16384) = x
    obtain ⟨x, s1⟩ := x
    cases x with
    | error e => rfl
    | ok b =>
      dsimp only
      split
      · rfl
      · rw [ih]

theorem iterStream_mem (fuel : Nat) (s : FileObj) : Builder.iterStream fuel (RecStream.mem (σ := σ) s) =
    ((Builder.iterStream fuel s).1, (Builder.iterStream fuel s).2.1, .mem (Builder.iterStream fuel s).2.2) := by
  induction fuel generalizing s with
  | zero => rfl
  | succ fuel ih =>
    unfold Builder.iterStream
    have : PyStream.read (RecStream.mem (σ := σ) s) (some 16384) = ((PyStream.read s (some 16384)).1, .mem (PyStream.read s (some 16384)).2) := rfl
    rw [this]
    generalize PyStream.read s (some 16384) = x
    obtain ⟨x, s1⟩ := x
    cases x with
    | error e => rfl
    | ok b =>
      dsimp only
      split
      · rfl
      · rw [ih]

theorem iterAll_own (s : σ) : Builder.iterAll (RecStream.own s) =
    ((Builder.iterAll s).1, (Builder.iterAll s).2.1, .own (Builder.iterAll s).2.2) := iterStream_own _ s

theorem iterAll_mem (s : FileObj) : Builder.iterAll (RecStream.mem (σ := σ) s) =
    ((Builder.iterAll s).1, (Builder.iterAll s).2.1, .mem (Builder.iterAll s).2.2) := iterStream_mem _ s

instance [Holding σ] : Holding (RecStream σ) where
  holds s d :=
    match s with
    | .own s => holds s d
    | .mem f => holds f d
    | .closed => False
  sends := by
    intro s d h
    cases s with
    | own s =>
      obtain ⟨bufs, s', h1, h2⟩ := Holding.sends h
      exact ⟨bufs, .own s', by rw [iterAll_own, h1], h2⟩
    | mem f =>
      obtain ⟨bufs, s', h1, h2⟩ := Holding.sends h
      exact ⟨bufs, .mem s', by rw [iterAll_mem, h1], h2⟩
    | closed => exact absurd h (fun h => h)
  rewind := by
    intro s d p s1 h ht hs
    cases s with
    | own s =>
      have hs : (PyFile.seek s p).map RecStream.own = .ok s1 := hs
      cases hk : PyFile.seek s p with
      | error e => rw [hk] at hs; cases hs
      | ok t =>
        rw [hk] at hs
        cases hs
        obtain ⟨k1, k2⟩ := Holding.rewind h ht hk
        refine ⟨k1, fun bufs x s2 hi => ?_⟩
        rw [iterAll_own] at hi
        cases hi
        obtain ⟨s3, m1, m2⟩ := k2 (Builder.iterAll t).1 (Builder.iterAll t).2.1 (Builder.iterAll t).2.2 rfl
        exact ⟨.own s3, by show (PyFile.seek _ p).map RecStream.own = _; rw [m1]; rfl, m2⟩
    | mem f =>
      have hs : (PyFile.seek f p).map RecStream.mem = .ok s1 := hs
      cases hk : PyFile.seek f p with
      | error e => rw [hk] at hs; cases hs
      | ok t =>
        rw [hk] at hs
        cases hs
        obtain ⟨k1, k2⟩ := Holding.rewind h ht hk
        refine ⟨k1, fun bufs x s2 hi => ?_⟩
        rw [iterAll_mem] at hi
        cases hi
        obtain ⟨s3, m1, m2⟩ := k2 (Builder.iterAll t).1 (Builder.iterAll t).2.1 (Builder.iterAll t).2.2 rfl
        exact ⟨.mem s3, by show (PyFile.seek _ p).map RecStream.mem = _; rw [m1]; rfl, m2⟩
    | closed => exact absurd h (fun h => h)

end
end Warcio
