import Verif.Model.BufferedReaders
import Verif.Proofs.Stream

/-!
# Buffered readers: from the behaviour of `_fillbuff` to `read` and `readline`
-/

namespace Warcio
namespace BufReader

variable {σ : Type} [Zlib] [PyStream σ]

/-- What a view of a buffered reader must satisfy so that `read`/`readline` behave. -/
structure FillLaw (W : BufReader σ → Bytes → Prop) : Prop where
  /-- the buffer holds the next bytes -/
  pre : ∀ {r rem}, W r rem → r.buff.getD [] <+: rem
  /-- `_fillbuff` succeeds and leaves the buffer empty only at the end -/
  fill : ∀ {r rem}, W r rem → ∃ r', r.fillbuff = (.ok (), r') ∧ W r' rem ∧
    (rem ≠ [] → r'.noBuff = false)
  /-- `empty` tells whether the buffer is empty -/
  empty : ∀ {r rem}, W r rem → W r.empty.2 rem
  /-- bytes can be taken from the buffer -/
  take : ∀ {r rem}, W r rem → ∀ k, k ≤ (r.buff.getD []).length →
    W { r with buff := some ((r.buff.getD []).drop k) } (rem.drop k)
  bound : ∀ {r rem}, W r rem → rem.length ≤ r.bound

omit [PyStream σ] in
theorem empty_fst (r : BufReader σ) : r.empty.1 = r.noBuff := by
  unfold BufReader.empty; split
  · rename_i h; split <;> simp [h]
  · rename_i h; simp at h; simp [h]

omit [PyStream σ] in
theorem empty_of_noBuff_false {r : BufReader σ} (h : r.noBuff = false) : r.empty = (false, r) := by
  simp [BufReader.empty, h]

omit [Zlib] [PyStream σ] in
theorem noBuff_iff {r : BufReader σ} : r.noBuff = true ↔ r.buff.getD [] = [] := by
  unfold BufReader.noBuff; cases r.buff <;> simp

variable {W : BufReader σ → Bytes → Prop}

theorem readLoop_spec (hW : FillLaw W) : ∀ (fuel : Nat) (n : Option Nat) (acc : Bytes) (r : BufReader σ)
    (rem : Bytes), W r rem → rem.length + 1 < fuel →
    ∃ r', readLoop fuel (n.map Int.ofNat) acc r =
        (.ok (acc ++ rem.take (n.getD rem.length)), r') ∧ W r' (rem.drop (n.getD rem.length)) := by
  intro fuel
  induction fuel with
  | zero => intro n acc r rem _ h; omega
  | succ fuel ih =>
    intro n acc r rem hr hf
    unfold readLoop
    by_cases hn : n = some 0
    · subst hn
      simp only [Option.map_some, Option.getD_some]
      exact ⟨r, by simp [wantsMore], by simpa using hr⟩
    · have hcond : wantsMore (n.map Int.ofNat) = true := by
        cases n with
        | none => rfl
        | some k => cases k with
          | zero => exact absurd rfl hn
          | succ k => simp [wantsMore]
      rw [if_pos hcond]
      obtain ⟨r1, hfill, hr1, hne⟩ := hW.fill hr
      rw [hfill]
      simp only
      by_cases hrem : rem = []
      · subst hrem
        have hp := hW.pre hr1
        have hb : r1.noBuff = true := noBuff_iff.2 (List.prefix_nil.1 hp)
        have he : r1.empty.1 = true := by rw [empty_fst, hb]
        simp only [he, if_true, List.take_nil, List.append_nil, List.drop_nil]
        exact ⟨_, rfl, hW.empty hr1⟩
      · have hb : r1.noBuff = false := hne hrem
        rw [empty_of_noBuff_false hb]
        simp only [Bool.false_eq_true, if_false]
        obtain ⟨t, ht⟩ := hW.pre hr1
        generalize hbuf : r1.buff.getD [] = b at ht
        have hbne : b ≠ [] := by
          intro h0
          have := noBuff_iff.2 (hbuf.trans h0)
          simp [this] at hb
        -- the number of bytes taken
        obtain ⟨k, hk⟩ : ∃ k, k = min (n.getD b.length) b.length := ⟨_, rfl⟩
        have htk : b.take (askLen (n.map Int.ofNat) b.length) = b.take k := by
          cases n with
          | none => simp [askLen, hk]
          | some m =>
            have : ¬ ((m : Int) < 0) := by omega
            simp only [askLen, Option.map_some, Int.ofNat_eq_natCast, this, if_false, Int.toNat_natCast, hk,
              Option.getD_some]
            rw [← List.take_take, List.take_length]
        have hdk : b.drop (askLen (n.map Int.ofNat) b.length) = b.drop k := by
          cases n with
          | none => simp [askLen, hk]
          | some m =>
            have : ¬ ((m : Int) < 0) := by omega
            simp only [askLen, Option.map_some, Int.ofNat_eq_natCast, this, if_false, Int.toNat_natCast, hk,
              Option.getD_some]
            by_cases hm : m ≤ b.length
            · rw [Nat.min_eq_left hm]
            · rw [Nat.min_eq_right (by omega), List.drop_of_length_le (by omega), List.drop_length]
        have hk1 : 0 < k := by
          have : 0 < b.length := List.length_pos_iff.2 hbne
          cases n with
          | none => simp at hk; omega
          | some m => cases m with
            | zero => exact absurd rfl hn
            | succ m => simp at hk; omega
        have hkb : k ≤ b.length := by omega
        have hbl : b.length ≤ rem.length := by rw [← ht]; simp
        simp only [buffRead, hbuf, htk, hdk]
        have hr2 := hW.take hr1 k (by rw [hbuf]; exact hkb)
        rw [hbuf] at hr2
        have hlen : (b.take k).length = k := by simp; omega
        have hmap : (n.map Int.ofNat).map (· - len (b.take k)) = (n.map (· - k)).map Int.ofNat ∨ n.getD b.length < k := by
          cases n with
          | none => left; rfl
          | some m =>
            by_cases hmk : m < k
            · right; simpa using hmk
            · left; simp [len, hlen]; omega
        have hnk : ¬ (n.getD b.length < k) := by omega
        have hmap' := hmap.resolve_right hnk
        have := ih (n.map (· - k)) (acc ++ b.take k) _ (rem.drop k) hr2 (by simp; omega)
        obtain ⟨r', he, hw⟩ := this
        refine ⟨r', ?_, ?_⟩
        · rw [hmap', he]
          congr 2
          have e1 : b.take k = rem.take k := by
            rw [← ht, List.take_append_of_le_length hkb]
          rw [e1, List.append_assoc]
          congr 1
          cases n with
          | none =>
            simp only [Option.map_none, Option.getD_none, List.take_length, List.take_append_drop]
          | some m =>
            simp only [Option.map_some, Option.getD_some]
            have hmk : k ≤ m := by simp at hnk; exact hnk
            have : m = k + (m - k) := by omega
            conv => rhs; rw [this, List.take_add]
        · cases n with
          | none =>
            simp only [Option.map_none, Option.getD_none, List.drop_length, List.length_drop] at hw ⊢
            rw [List.drop_drop] at hw
            rw [List.drop_of_length_le] at hw
            · exact hw
            · omega
          | some m =>
            simp only [Option.map_some, Option.getD_some] at hw ⊢
            rw [List.drop_drop] at hw
            have hmk : k ≤ m := by simp at hnk; exact hnk
            rw [show k + (m - k) = m by omega] at hw
            exact hw

theorem read_some_spec (hW : FillLaw W) {r : BufReader σ} {rem : Bytes} (h : W r rem) (n : Nat) :
    ∃ r', r.read (some (n : Int)) = (.ok (rem.take n), r') ∧ W r' (rem.drop n) := by
  have hb := hW.bound h
  obtain ⟨r', h1, h2⟩ := readLoop_spec hW (r.bound + 2) (some n) [] r rem h (by omega)
  exact ⟨r', by simpa [BufReader.read] using h1, by simpa using h2⟩

theorem read_none_spec (hW : FillLaw W) {r : BufReader σ} {rem : Bytes} (h : W r rem) :
    ∃ r', r.read none = (.ok rem, r') ∧ W r' [] := by
  have hb := hW.bound h
  obtain ⟨r', h1, h2⟩ := readLoop_spec hW (r.bound + 2) none [] r rem h (by omega)
  exact ⟨r', by simpa [BufReader.read] using h1, by simpa using h2⟩

/-- One step of taking a line from a non-empty buffer. -/
theorem buffReadline_spec (hW : FillLaw W) {r : BufReader σ} {rem : Bytes} (h : W r rem)
    (n : Option Nat) :
    ∃ k, r.buffReadline (n.map Int.ofNat) =
        (rem.take k, { r with buff := some ((r.buff.getD []).drop k) }) ∧
      k = min (n.getD (takeLine (r.buff.getD [])).length) (takeLine (r.buff.getD [])).length ∧
      k ≤ (takeLine rem).length ∧
      W { r with buff := some ((r.buff.getD []).drop k) } (rem.drop k) := by
  obtain ⟨t, ht⟩ := hW.pre h
  generalize hb : r.buff.getD [] = b at ht
  have hbl : (takeLine b).length ≤ b.length := takeLine_length_le b
  obtain ⟨k, hk⟩ : ∃ k, k = min (n.getD (takeLine b).length) (takeLine b).length := ⟨_, rfl⟩
  have e : (takeLine b).take (askLen (n.map Int.ofNat) (takeLine b).length) = rem.take k := by
    have e1 : rem.take k = b.take k := by
      rw [← ht, List.take_append_of_le_length (by omega)]
    have e2 : b.take k = (takeLine b).take k := by
      conv => rhs; rw [← take_takeLine_length b, List.take_take]
      congr 1; omega
    rw [e1, e2]
    cases n with
    | none => simp [askLen, hk]
    | some m =>
      have : ¬ ((m : Int) < 0) := by omega
      simp only [askLen, Option.map_some, Int.ofNat_eq_natCast, this, if_false, Int.toNat_natCast, hk,
        Option.getD_some]
      rw [← List.take_take, List.take_length]
  have hkl : (rem.take k).length = k := by
    rw [← ht]; simp; omega
  refine ⟨k, ?_, hk, ?_, ?_⟩
  · simp only [buffReadline, hb, e, hkl]
  · have : (takeLine b).length ≤ (takeLine rem).length := by
      rw [← ht, takeLine_append]; split
      · exact Nat.le_refl _
      · simp; omega
    omega
  · have := hW.take h k (by rw [hb]; omega)
    rw [hb] at this; exact this

omit [Zlib] in
theorem takeLine_take_of_lt {rem : Bytes} {k : Nat} (h : k < (takeLine rem).length) :
    (10 : UInt8) ∉ rem.take k := by
  induction rem generalizing k with
  | nil => simp
  | cons x xs ih =>
    cases k with
    | zero => simp
    | succ k =>
      simp only [takeLine] at h
      split at h
      · simp at h
      · rename_i hx
        simp only [List.length_cons, Nat.add_lt_add_iff_right] at h
        simp only [List.take_succ_cons, List.mem_cons, not_or]
        exact ⟨fun he => hx he.symm, ih h⟩

theorem readlineLoop_none (hW : FillLaw W) : ∀ (fuel : Nat) (line : Bytes) (r : BufReader σ)
    (rem : Bytes), W r rem → rem.length + 1 < fuel → (10 : UInt8) ∉ line →
    ∃ r', readlineLoop fuel none line r = (.ok (line ++ takeLine rem), r') ∧ W r' (dropLine rem) := by
  intro fuel
  induction fuel with
  | zero => intro line r rem _ h; omega
  | succ fuel ih =>
    intro line r rem hr hf hline
    unfold readlineLoop
    have he : endsWith [10] line = false := by
      cases h : endsWith [10] line with
      | false => rfl
      | true => exact absurd (endsWith_nl_of_mem h) hline
    simp only [he, decLen, Bool.false_eq_true, if_false]
    obtain ⟨r1, hfill, hr1, hne⟩ := hW.fill hr
    rw [hfill]
    simp only
    by_cases hrem : rem = []
    · subst hrem
      have hb : r1.noBuff = true := noBuff_iff.2 (List.prefix_nil.1 (hW.pre hr1))
      have he : r1.empty.1 = true := by rw [empty_fst, hb]
      simp only [he, if_true, takeLine, dropLine, List.append_nil]
      exact ⟨_, rfl, hW.empty hr1⟩
    · have hb : r1.noBuff = false := hne hrem
      rw [empty_of_noBuff_false hb]
      simp only [Bool.false_eq_true, if_false]
      obtain ⟨k, hbr, hk, hkl, hw⟩ := buffReadline_spec hW hr1 none
      simp only [Option.map_none] at hbr
      rw [hbr]
      simp only
      obtain ⟨t, ht⟩ := hW.pre hr1
      generalize hbuf : r1.buff.getD [] = b at ht hk hw
      simp only [Option.getD_none, Nat.min_self] at hk
      have hbne : b ≠ [] := by
        intro h0; have := noBuff_iff.2 (hbuf.trans h0); simp [this] at hb
      have e1 : rem.take k = takeLine b := by
        rw [hk, ← ht, List.take_append_of_le_length (takeLine_length_le b), take_takeLine_length]
      have hkpos : 0 < k := by
        rw [hk]; exact List.length_pos_iff.2 (takeLine_ne_nil hbne)
      have hkrem : k ≤ rem.length := Nat.le_trans hkl (takeLine_length_le rem)
      by_cases hnl : (10 : UInt8) ∈ b
      · -- the line ends in this buffer
        have e2 : takeLine rem = takeLine b := by rw [← ht, takeLine_append, if_pos hnl]
        obtain ⟨fuel, rfl⟩ : ∃ f, fuel = f + 1 := ⟨fuel - 1, by omega⟩
        have hd : dropLine rem = rem.drop k := by rw [← drop_takeLine_length, e2, ← hk]
        rw [hd]
        refine ⟨_, ?_, hw⟩
        · unfold readlineLoop
          have hend : endsWith [10] (line ++ rem.take k) = true := by
            rw [e1]
            have := endsWith_nl_takeLine (b := b)
            simp only [hnl, decide_true] at this
            simp only [endsWith, List.isSuffixOf_iff_suffix] at this ⊢
            exact List.IsSuffix.trans this (List.suffix_append _ _)
          rw [if_pos hend, e1, e2]
      · have e2 : takeLine b = b := takeLine_of_no_nl hnl
        obtain ⟨r', h1, h2⟩ := ih (line ++ rem.take k) _ (rem.drop k) hw (by simp; omega)
          (by rw [e1, e2]; simp [hline, hnl])
        have e3 : rem.drop k = t := by
          rw [hk, e2, ← ht]; simp
        refine ⟨r', ?_, ?_⟩
        · rw [h1, e1, e2, e3, ← ht, takeLine_append, if_neg hnl, List.append_assoc]
        · have : dropLine rem = dropLine (rem.drop k) := by
            rw [e3, ← drop_takeLine_length rem, ← ht, takeLine_append, if_neg hnl]
            rw [List.length_append, ← List.drop_drop]; simp [drop_takeLine_length]
          rw [this]; exact h2

theorem readline_none_spec (hW : FillLaw W) {r : BufReader σ} {rem : Bytes} (h : W r rem) :
    ∃ r', r.readline none = (.ok (takeLine rem), r') ∧ W r' (dropLine rem) := by
  unfold BufReader.readline
  simp only [reduceCtorEq, if_false]
  obtain ⟨r1, hfill, hr1, hne⟩ := hW.fill h
  rw [hfill]
  simp only
  by_cases hrem : rem = []
  · subst hrem
    have hb : r1.noBuff = true := noBuff_iff.2 (List.prefix_nil.1 (hW.pre hr1))
    have he : r1.empty.1 = true := by rw [empty_fst, hb]
    simp only [he, if_true, takeLine, dropLine]
    exact ⟨_, rfl, hW.empty hr1⟩
  · have hb : r1.noBuff = false := hne hrem
    rw [empty_of_noBuff_false hb]
    simp only [Bool.false_eq_true, if_false]
    obtain ⟨k, hbr, hk, hkl, hw⟩ := buffReadline_spec hW hr1 none
    simp only [Option.map_none] at hbr
    rw [hbr]
    simp only
    obtain ⟨t, ht⟩ := hW.pre hr1
    generalize hbuf : r1.buff.getD [] = b at ht hk hw
    simp only [Option.getD_none, Nat.min_self] at hk
    have hbound := hW.bound hw
    have e1 : rem.take k = takeLine b := by
      rw [hk, ← ht, List.take_append_of_le_length (takeLine_length_le b), take_takeLine_length]
    by_cases hnl : (10 : UInt8) ∈ b
    · have e2 : takeLine rem = takeLine b := by rw [← ht, takeLine_append, if_pos hnl]
      have hd : dropLine rem = rem.drop k := by rw [← drop_takeLine_length, e2, ← hk]
      rw [hd]
      refine ⟨_, ?_, hw⟩
      · unfold readlineLoop
        have hend : endsWith [10] (rem.take k) = true := by
          rw [e1, endsWith_nl_takeLine]; simp [hnl]
        rw [if_pos hend, e1, e2]
    · have e2 : takeLine b = b := takeLine_of_no_nl hnl
      have e3 : rem.drop k = t := by rw [hk, e2, ← ht]; simp
      obtain ⟨r', h1, h2⟩ := readlineLoop_none hW _ (rem.take k) _ (rem.drop k) hw
          (Nat.lt_of_le_of_lt (Nat.add_le_add_right hbound 1) (Nat.lt_succ_self _))
          (by rw [e1, e2]; exact hnl)
      refine ⟨r', ?_, ?_⟩
      · rw [h1, e1, e2, e3, ← ht, takeLine_append, if_neg hnl]
      · have : dropLine rem = dropLine (rem.drop k) := by
          rw [e3, ← drop_takeLine_length rem, ← ht, takeLine_append, if_neg hnl]
          rw [List.length_append, ← List.drop_drop]; simp [drop_takeLine_length]
        rw [this]; exact h2

theorem readlineLoop_some (hW : FillLaw W) (N : Nat) : ∀ (fuel : Nat) (n : Nat) (line : Bytes)
    (r : BufReader σ) (rem : Bytes), W r rem → rem.length + 1 < fuel → 0 < n → n ≤ N → line.length ≤ N →
    ∃ k r', k ≤ (takeLine rem).length ∧ line.length + k ≤ N ∧ (endsWith [10] line = true → k = 0) ∧
      readlineLoop fuel (some (n : Int)) line r = (.ok (line ++ rem.take k), r') ∧ W r' (rem.drop k) := by
  intro fuel
  induction fuel with
  | zero => intro n line r rem _ h; omega
  | succ fuel ih =>
    intro n line r rem hr hf hn hnN hlN
    unfold readlineLoop
    by_cases he : endsWith [10] line = true
    · exact ⟨0, r, by omega, by omega, fun _ => rfl, by simp [he], by simpa using hr⟩
    · rw [if_neg he]
      have hn0 : ¬ ((n : Int) = 0) := by omega
      by_cases hle : (n : Int) - len line ≤ 0
      · simp only [decLen, hn0, hle, if_false, if_true]
        exact ⟨0, r, by omega, by omega, fun _ => rfl, by simp, by simpa using hr⟩
      · simp only [decLen, hn0, hle, if_false]
        obtain ⟨m, hm⟩ : ∃ m : Nat, (n : Int) - len line = (m : Int) := ⟨n - line.length, by simp [len] at hle ⊢; omega⟩
        rw [hm]
        have hm' : m = n - line.length := by simp [len] at hm hle; omega
        have hm0 : 0 < m := by simp only [len] at hle; omega
        obtain ⟨r1, hfill, hr1, hne⟩ := hW.fill hr
        rw [hfill]
        simp only
        by_cases hrem : rem = []
        · subst hrem
          have hb : r1.noBuff = true := noBuff_iff.2 (List.prefix_nil.1 (hW.pre hr1))
          have he' : r1.empty.1 = true := by rw [empty_fst, hb]
          exact ⟨0, r1.empty.2, by omega, by omega, fun _ => rfl, by simp [he'], by simpa using hW.empty hr1⟩
        · have hb : r1.noBuff = false := hne hrem
          rw [empty_of_noBuff_false hb]
          simp only [Bool.false_eq_true, if_false]
          obtain ⟨k, hbr, hk, hkl, hw⟩ := buffReadline_spec hW hr1 (some m)
          simp only [Option.map_some, Int.ofNat_eq_natCast] at hbr
          rw [hbr]
          simp only
          obtain ⟨t, ht⟩ := hW.pre hr1
          generalize hbuf : r1.buff.getD [] = b at ht hk hw
          have hbne : b ≠ [] := by
            intro h0; have := noBuff_iff.2 (hbuf.trans h0); simp [this] at hb
          have hkpos : 0 < k := by
            have := List.length_pos_iff.2 (takeLine_ne_nil hbne)
            simp at hk; omega
          have hkm : k ≤ m := by simp at hk; omega
          have hkrem : k ≤ rem.length := Nat.le_trans hkl (takeLine_length_le rem)
          have hlen : (line ++ rem.take k).length = line.length + k := by simp; omega
          obtain ⟨j, r', hj1, hj2, hj3, hj4, hj5⟩ :=
            ih m (line ++ rem.take k) _ (rem.drop k) hw (by simp; omega) hm0 (by omega) (by rw [hlen]; omega)
          rw [hlen] at hj2
          have hjk : k + j ≤ (takeLine rem).length := by
            by_cases hlt : k < (takeLine rem).length
            · have hno := takeLine_take_of_lt hlt
              have : takeLine rem = rem.take k ++ takeLine (rem.drop k) := by
                conv => lhs; rw [← List.take_append_drop k rem]
                rw [takeLine_append, if_neg hno]
              rw [this]; simp; omega
            · have hkeq : k = (takeLine rem).length := by omega
              have e : rem.take k = takeLine rem := by rw [hkeq, take_takeLine_length]
              by_cases hnl : (10 : UInt8) ∈ rem
              · have : endsWith [10] (line ++ rem.take k) = true := by
                  rw [e]
                  have h10 : endsWith [10] (takeLine rem) = true := by
                    rw [endsWith_nl_takeLine]; simp [hnl]
                  simp only [endsWith, List.isSuffixOf_iff_suffix] at h10 ⊢
                  exact List.IsSuffix.trans h10 (List.suffix_append _ _)
                rw [hj3 this]; omega
              · have : takeLine rem = rem := takeLine_of_no_nl hnl
                rw [this] at hkeq
                have hd : rem.drop k = [] := by rw [hkeq]; simp
                rw [hd] at hj1; simp [takeLine] at hj1
                omega
          refine ⟨k + j, r', hjk, by omega, fun h => absurd h he, ?_, ?_⟩
          · rw [hj4, List.append_assoc, List.take_add]
          · rw [← List.drop_drop]; exact hj5

theorem readline_some_spec (hW : FillLaw W) {r : BufReader σ} {rem : Bytes} (h : W r rem) (n : Nat) :
    ∃ k r', k ≤ (takeLine rem).length ∧ k ≤ n ∧ (0 < n → k = 0 → rem = []) ∧
      r.readline (some (n : Int)) = (.ok (rem.take k), r') ∧ W r' (rem.drop k) := by
  unfold BufReader.readline
  by_cases hn : n = 0
  · subst hn
    exact ⟨0, r, by omega, by omega, by omega, by simp, by simpa using h⟩
  · have hn' : ¬ (some (n : Int) = some 0) := by simp; omega
    simp only [hn', if_false]
    obtain ⟨r1, hfill, hr1, hne⟩ := hW.fill h
    rw [hfill]
    simp only
    by_cases hrem : rem = []
    · subst hrem
      have hb : r1.noBuff = true := noBuff_iff.2 (List.prefix_nil.1 (hW.pre hr1))
      have he' : r1.empty.1 = true := by rw [empty_fst, hb]
      refine ⟨0, r1.empty.2, by omega, by omega, fun _ _ => rfl, by simp [he'], by simpa using hW.empty hr1⟩
    · have hb : r1.noBuff = false := hne hrem
      rw [empty_of_noBuff_false hb]
      simp only [Bool.false_eq_true, if_false]
      obtain ⟨k, hbr, hk, hkl, hw⟩ := buffReadline_spec hW hr1 (some n)
      simp only [Option.map_some, Int.ofNat_eq_natCast] at hbr
      rw [hbr]
      simp only
      obtain ⟨t, ht⟩ := hW.pre hr1
      generalize hbuf : r1.buff.getD [] = b at ht hk hw
      have hbne : b ≠ [] := by
        intro h0; have := noBuff_iff.2 (hbuf.trans h0); simp [this] at hb
      have hkpos : 0 < k := by
        have := List.length_pos_iff.2 (takeLine_ne_nil hbne)
        simp at hk; omega
      have hkm : k ≤ n := by simp at hk; omega
      have hkrem : k ≤ rem.length := Nat.le_trans hkl (takeLine_length_le rem)
      have hlen : (rem.take k).length = k := by simp; omega
      have hbound := hW.bound hw
      obtain ⟨j, r', hj1, hj2, hj3, hj4, hj5⟩ :=
        readlineLoop_some hW n _ n (rem.take k) _ (rem.drop k) hw
          (Nat.lt_of_le_of_lt (Nat.add_le_add_right hbound 1) (Nat.lt_succ_self _)) (by omega) (by omega) (by omega)
      rw [hlen] at hj2
      have hjk : k + j ≤ (takeLine rem).length := by
        by_cases hlt : k < (takeLine rem).length
        · have hno := takeLine_take_of_lt hlt
          have : takeLine rem = rem.take k ++ takeLine (rem.drop k) := by
            conv => lhs; rw [← List.take_append_drop k rem]
            rw [takeLine_append, if_neg hno]
          rw [this]; simp; omega
        · have hkeq : k = (takeLine rem).length := by omega
          have e : rem.take k = takeLine rem := by rw [hkeq, take_takeLine_length]
          by_cases hnl : (10 : UInt8) ∈ rem
          · have : endsWith [10] (rem.take k) = true := by
              rw [e, endsWith_nl_takeLine]; simp [hnl]
            rw [hj3 this]; omega
          · have : takeLine rem = rem := takeLine_of_no_nl hnl
            rw [this] at hkeq
            have hd : rem.drop k = [] := by rw [hkeq]; simp
            rw [hd] at hj1; simp [takeLine] at hj1
            omega
      refine ⟨k + j, r', hjk, by omega, by omega, ?_, ?_⟩
      · rw [hj4, List.take_add]
      · rw [← List.drop_drop]; exact hj5

/-- A view that satisfies `FillLaw` is exact for `read` and `readline()`. -/
theorem exactRead (hW : FillLaw W) : ExactRead W where
  read_some h n := read_some_spec hW h n
  read_none h := read_none_spec hW h
  readline_none h := readline_none_spec hW h
  readline_some h n := readline_some_spec hW h n
  bound h := hW.bound h

end BufReader
end Warcio
