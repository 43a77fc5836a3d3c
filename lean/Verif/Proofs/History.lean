import Verif.Proofs.LimitReader
import Verif.Proofs.GzReader

/-! # Call histories on exact streams, and `readline(n)` over at most two buffers -/

namespace Warcio

set_option linter.unusedSectionVars false

variable {σ : Type} [PyStream σ] {V : σ → Bytes → Prop}

theorem ExactRead.call (hV : ExactRead V) {s : σ} {rem : Bytes} (h : V s rem) {c : Call}
    (hn : c.nonneg) (hs : c.simple = true) :
    ∃ s', c.run s = (.ok (c.expect rem), s') ∧ V s' (rem.drop (c.expect rem).length) := by
  cases c with
  | read n =>
    cases n with
    | none =>
      obtain ⟨s', h1, h2⟩ := hV.read_none h
      exact ⟨s', h1, by simpa [Call.expect] using h2⟩
    | some k =>
      have hk := hn k rfl
      obtain ⟨m, rfl⟩ : ∃ m : Nat, k = (m : Int) := ⟨_, (Int.toNat_of_nonneg hk).symm⟩
      obtain ⟨s', h1, h2⟩ := hV.read_some h m
      refine ⟨s', h1, ?_⟩
      simp only [Call.expect, Int.toNat_natCast]
      have : rem.drop (rem.take m).length = rem.drop m := by
        rw [List.length_take]
        by_cases hm : m ≤ rem.length
        · rw [Nat.min_eq_left hm]
        · rw [Nat.min_eq_right (by omega), List.drop_of_length_le (by omega), List.drop_of_length_le (by omega)]
      rw [this]; exact h2
  | readline n =>
    cases n with
    | none =>
      obtain ⟨s', h1, h2⟩ := hV.readline_none h
      exact ⟨s', h1, by simpa [Call.expect, drop_takeLine_length] using h2⟩
    | some k => simp [Call.simple] at hs

/-- Any history of `read(n)`, `read()` and `readline()` calls on an exact stream. -/
theorem ExactRead.calls (hV : ExactRead V) : ∀ (cs : List Call) {s : σ} {rem : Bytes}, V s rem →
    (∀ c ∈ cs, c.nonneg ∧ c.simple = true) →
    ∃ s', runCalls s cs = ((expectCalls rem cs).1.map .ok, s') ∧ V s' (expectCalls rem cs).2 := by
  intro cs
  induction cs with
  | nil => intro s rem h _; exact ⟨s, rfl, h⟩
  | cons c cs ih =>
    intro s rem h hc
    obtain ⟨s1, h1, h2⟩ := hV.call h (hc c (by simp)).1 (hc c (by simp)).2
    obtain ⟨s2, h3, h4⟩ := ih h2 (fun c' hc' => hc c' (by simp [hc']))
    exact ⟨s2, by simp [runCalls, expectCalls, h1, h3], by simpa [expectCalls] using h4⟩

/-- A history of any calls with non-negative lengths on an exact stream: the results are
consecutive pieces of what is left. -/
theorem Bounded.calls (hV : Bounded V) : ∀ (cs : List Call) {s : σ} {rem : Bytes}, V s rem →
    (∀ c ∈ cs, ∃ n : Int, c.arg = some n ∧ 0 ≤ n) →
    ∃ (ps : List Bytes) (s' : σ) (rem' : Bytes), runCalls s cs = (ps.map .ok, s') ∧ V s' rem' ∧ rem = ps.flatten ++ rem' := by
  intro cs
  induction cs with
  | nil => intro s rem h _; exact ⟨[], s, rem, rfl, h, rfl⟩
  | cons c cs ih =>
    intro s rem h hc
    obtain ⟨n, hn, hn0⟩ := hc c (by simp)
    obtain ⟨m, rfl⟩ : ∃ m : Nat, n = (m : Int) := ⟨_, (Int.toNat_of_nonneg hn0).symm⟩
    have : ∃ p rem' s', rem = p ++ rem' ∧ c.run s = (.ok p, s') ∧ V s' rem' := by
      cases c with
      | read k =>
        simp only [Call.arg] at hn; subst hn
        obtain ⟨p, rem', s', h1, _, h3, h4⟩ := hV.read h m
        exact ⟨p, rem', s', h1, h3, h4⟩
      | readline k =>
        simp only [Call.arg] at hn; subst hn
        obtain ⟨p, rem', s', h1, _, h3, h4⟩ := hV.readline h m
        exact ⟨p, rem', s', h1, h3, h4⟩
    obtain ⟨p, rem1, s1, h1, h2, h3⟩ := this
    obtain ⟨ps, s2, rem2, k1, k2, k3⟩ := ih h3 (fun c' hc' => hc c' (by simp [hc']))
    exact ⟨p :: ps, s2, rem2, by simp [runCalls, h2, k1], k2, by rw [h1, k3]; simp⟩

namespace BufReader

variable [Zlib] {W : BufReader σ → Bytes → Prop}

/-- The next buffer holds the whole of the next line. -/
def Covers (r : BufReader σ) (rem : Bytes) : Prop :=
  ∀ r', r.fillbuff = (.ok (), r') → takeLine (r'.buff.getD []) = takeLine rem

/-- The next line lies in at most two buffers. -/
def TwoBuf (r : BufReader σ) (rem : Bytes) : Prop :=
  ∀ r1, r.fillbuff = (.ok (), r1) → takeLine (r1.buff.getD []) = takeLine rem ∨
    Covers { r1 with buff := some [] } (rem.drop (r1.buff.getD []).length)

theorem endsWith_nl_iff {l : Bytes} : endsWith [10] l = true ↔ ∃ t, l = t ++ [10] := by
  unfold endsWith
  rw [List.isSuffixOf_iff_suffix]
  constructor
  · rintro ⟨t, ht⟩; exact ⟨t, ht.symm⟩
  · rintro ⟨t, ht⟩; exact ⟨t, ht.symm⟩

/-- When the accumulated line is complete or exhausts the length or the data, the loop
returns it. -/
theorem readlineLoop_stop (hW : FillLaw W) {fuel : Nat} {m : Int} {line : Bytes} {r : BufReader σ}
    {rem : Bytes} (h : W r rem) (hf : 0 < fuel) (hm : 0 < m)
    (hstop : endsWith [10] line = true ∨ m ≤ len line ∨ rem = []) :
    ∃ r', readlineLoop fuel (some m) line r = (.ok line, r') ∧ W r' rem := by
  obtain ⟨fuel, rfl⟩ : ∃ f, fuel = f + 1 := ⟨fuel - 1, by omega⟩
  unfold readlineLoop
  by_cases he : endsWith [10] line = true
  · exact ⟨r, by simp [he], h⟩
  · rw [if_neg he]
    have hm0 : ¬ m = 0 := by omega
    unfold decLen
    simp only [hm0, if_false]
    by_cases hd : m - len line ≤ 0
    · rw [if_pos hd]; exact ⟨r, rfl, h⟩
    · rw [if_neg hd]
      have hrem : rem = [] := by
        rcases hstop with h1 | h1 | h1
        · exact absurd h1 he
        · omega
        · exact h1
      simp only
      obtain ⟨r1, e1, e2, _⟩ := hW.fill h
      rw [e1]
      have hb : r1.noBuff = true := by
        have := hW.pre e2
        rw [hrem] at this
        exact noBuff_iff.2 (List.prefix_nil.1 this)
      have he : r1.empty.1 = true := by rw [empty_fst, hb]
      simp only [he, if_true]
      exact ⟨_, rfl, hW.empty e2⟩

/-- `buff.readline(m)` when the buffer's first line is the stream's. -/
theorem buffReadline_cover (hW : FillLaw W) {r : BufReader σ} {rem : Bytes} (h : W r rem) (m : Nat)
    (hc : takeLine (r.buff.getD []) = takeLine rem) :
    ∃ r', r.buffReadline (some (m : Int)) = ((takeLine rem).take m, r') ∧
      W r' (rem.drop ((takeLine rem).take m).length) := by
  have hk : ((takeLine rem).take m).length ≤ (r.buff.getD []).length := by
    have h1 := takeLine_length_le (r.buff.getD [])
    rw [hc] at h1
    rw [List.length_take]; omega
  refine ⟨{ r with buff := some ((r.buff.getD []).drop ((takeLine rem).take m).length) }, ?_, hW.take h _ hk⟩
  have hn' : ¬ ((m : Int) < 0) := by omega
  simp only [buffReadline, askLen, hn', if_false, Int.toNat_natCast, hc]

theorem stop_of_take {rem : Bytes} {m : Nat} :
    endsWith [10] ((takeLine rem).take m) = true ∨ m ≤ ((takeLine rem).take m).length ∨
      rem.drop ((takeLine rem).take m).length = [] := by
  by_cases hm : m ≤ (takeLine rem).length
  · right; left; rw [List.length_take]; omega
  · rw [List.take_of_length_le (by omega)]
    by_cases hnl : (10 : UInt8) ∈ rem
    · left; rw [endsWith_nl_takeLine]; exact decide_eq_true hnl
    · right; right
      rw [takeLine_of_no_nl hnl]; simp

/-- `readline(n)` is exact when the next line lies in at most two buffers. -/
theorem readline_some_exact (hW : FillLaw W) {r : BufReader σ} {rem : Bytes} (h : W r rem)
    (ht : TwoBuf r rem) (n : Nat) :
    ∃ r', r.readline (some (n : Int)) = (.ok ((takeLine rem).take n), r') ∧
      W r' (rem.drop ((takeLine rem).take n).length) := by
  unfold BufReader.readline
  by_cases hn : n = 0
  · subst hn; exact ⟨r, by simp, by simpa using h⟩
  have hn' : ¬ (some (n : Int) = some 0) := by simp; omega
  simp only [hn', if_false]
  obtain ⟨r1, e1, e2, e3⟩ := hW.fill h
  have ht1 := ht r1 e1
  rw [e1]
  simp only
  by_cases hrem : rem = []
  · subst hrem
    have hb : r1.noBuff = true := noBuff_iff.2 (List.prefix_nil.1 (hW.pre e2))
    have he : r1.empty.1 = true := by rw [empty_fst, hb]
    simp only [he, if_true, takeLine, List.take_nil, List.length_nil, List.drop_nil]
    exact ⟨_, rfl, hW.empty e2⟩
  have hnb := e3 hrem
  rw [empty_of_noBuff_false hnb]
  simp only [Bool.false_eq_true, if_false]
  have hstart : ∀ {b : Bytes} {r' : BufReader σ} (line : Bytes),
      takeLine (r1.buff.getD []) = takeLine rem → True := fun _ _ => trivial
  rcases ht1 with hc | hc
  · obtain ⟨r2, f1, f2⟩ := buffReadline_cover hW e2 n hc
    rw [f1]
    simp only
    refine readlineLoop_stop hW f2 (by omega) (by omega) ?_
    rcases stop_of_take (rem := rem) (m := n) with h1 | h1 | h1
    · exact Or.inl h1
    · right; left; simp only [len]; omega
    · exact Or.inr (Or.inr h1)
  · -- the line may go on in the next buffer
    generalize hb1 : r1.buff.getD [] = b1 at hc
    obtain ⟨t, hbt⟩ := hW.pre e2
    rw [hb1] at hbt
    by_cases hnl : (10 : UInt8) ∈ b1
    · have hcov : takeLine (r1.buff.getD []) = takeLine rem := by
        rw [hb1, ← hbt, takeLine_append, if_pos hnl]
      obtain ⟨r2, f1, f2⟩ := buffReadline_cover hW e2 n hcov
      rw [f1]
      simp only
      refine readlineLoop_stop hW f2 (by omega) (by omega) ?_
      rcases stop_of_take (rem := rem) (m := n) with h1 | h1 | h1
      · exact Or.inl h1
      · right; left; simp only [len]; omega
      · exact Or.inr (Or.inr h1)
    · have hb1l : b1 ≠ [] := by
        intro h0; rw [h0] at hb1
        rw [noBuff_iff.2 hb1] at hnb; cases hnb
      have hln : takeLine b1 = b1 := takeLine_of_no_nl hnl
      have hn'' : ¬ ((n : Int) < 0) := by omega
      have hbr : r1.buffReadline (some (n : Int)) = (b1.take n, { r1 with buff := some (b1.drop (b1.take n).length) }) := by
        simp only [buffReadline, askLen, hn'', if_false, Int.toNat_natCast, hb1, hln]
      rw [hbr]
      simp only
      have hlrem : takeLine rem = b1 ++ takeLine (rem.drop b1.length) := by
        rw [← hbt, takeLine_append, if_neg hnl]; simp
      have hrd : rem.drop b1.length = t := by rw [← hbt]; simp
      have htake := hW.take e2 (b1.take n).length (by rw [hb1]; simp; omega)
      rw [hb1] at htake
      by_cases hnb1 : n ≤ b1.length
      · -- the length is used up by the first buffer
        have hE : (takeLine rem).take n = b1.take n := by
          rw [hlrem, List.take_append_of_le_length hnb1]
        rw [hE]
        refine readlineLoop_stop hW htake (by omega) (by omega) ?_
        right; left; simp only [len, List.length_take]; omega
      · have htb : b1.take n = b1 := List.take_of_length_le (by omega)
        rw [htb] at htake ⊢
        simp only [List.drop_length] at htake ⊢
        have hwb : W { r1 with buff := some [] } (rem.drop b1.length) := htake
        have hbound := hW.bound hwb
        obtain ⟨fuel, hfuel⟩ : ∃ f, BufReader.bound { r1 with buff := some [] } + 2 = f + 1 := ⟨_, rfl⟩
        rw [hfuel]
        unfold readlineLoop
        have he : endsWith [10] b1 = false := by
          cases h : endsWith [10] b1 with
          | false => rfl
          | true => exact absurd (endsWith_nl_of_mem h) hnl
        have hd0 : ¬ ((n : Int) = 0) := by omega
        have hd1 : ¬ ((n : Int) - len b1 ≤ 0) := by simp only [len]; omega
        simp only [he, Bool.false_eq_true, if_false, decLen, hd0, hd1]
        obtain ⟨r2, g1, g2, g3⟩ := hW.fill hwb
        rw [g1]
        simp only
        by_cases hrd0 : rem.drop b1.length = []
        · have hb : r2.noBuff = true := by
            have := hW.pre g2
            rw [hrd0] at this
            exact noBuff_iff.2 (List.prefix_nil.1 this)
          have he : r2.empty.1 = true := by rw [empty_fst, hb]
          simp only [he, if_true]
          have hE : (takeLine rem).take n = b1 := by
            rw [hlrem, hrd0]; simp only [takeLine, List.append_nil]; exact htb
          rw [hE]
          exact ⟨_, rfl, hW.empty g2⟩
        · rw [empty_of_noBuff_false (g3 hrd0)]
          simp only [Bool.false_eq_true, if_false]
          obtain ⟨m, hm⟩ : ∃ m : Nat, (n : Int) - len b1 = (m : Int) := ⟨n - b1.length, by simp only [len]; omega⟩
          rw [hm]
          have hmn : n = b1.length + m := by simp only [len] at hm; omega
          obtain ⟨r3, k1, k2⟩ := buffReadline_cover hW g2 m (hc r2 g1)
          rw [k1]
          simp only
          have hE : (takeLine rem).take n = b1 ++ (takeLine (rem.drop b1.length)).take m := by
            rw [hlrem, hmn, List.take_length_add_append]
          rw [hE]
          have hdd : rem.drop (b1 ++ (takeLine (rem.drop b1.length)).take m).length =
              (rem.drop b1.length).drop ((takeLine (rem.drop b1.length)).take m).length := by
            rw [List.drop_drop, List.length_append]
          rw [hdd]
          refine readlineLoop_stop hW k2 (by omega) (by omega) ?_
          rcases stop_of_take (rem := rem.drop b1.length) (m := m) with h1 | h1 | h1
          · left
            obtain ⟨t', ht'⟩ := endsWith_nl_iff.1 h1
            exact endsWith_nl_iff.2 ⟨b1 ++ t', by rw [ht']; simp⟩
          · right; left; simp only [len, List.length_append]; omega
          · exact Or.inr (Or.inr h1)

end BufReader
end Warcio
