import Verif.Proofs.TwoBuf

/-! # Histories of arbitrary calls when lines are short -/

namespace Warcio

set_option linter.unusedSectionVars false

variable {σ : Type} [PyStream σ] {V : σ → Bytes → Prop}

/-- No stretch without newline is longer than `m`. -/
def linesWithin (m : Nat) (rem : Bytes) : Prop := ∀ k, (takeLine (rem.drop k)).length ≤ m

theorem linesWithin.drop {m : Nat} {rem : Bytes} (h : linesWithin m rem) (k : Nat) :
    linesWithin m (rem.drop k) := by
  intro j; rw [List.drop_drop]; exact h _

theorem linesWithin_of_length {m : Nat} {rem : Bytes} (h : rem.length ≤ m) : linesWithin m rem := by
  intro k
  have := takeLine_length_le (rem.drop k)
  simp only [List.length_drop] at this; omega

namespace BufReader

variable [Zlib] {W : BufReader σ → Bytes → Prop} {Q : Nat → Prop}

/-- Any history of calls with non-negative lengths. -/
theorem calls_exact (hW : FillLaw W) {A : Bytes → Prop} (hA : ∀ {rem} k, A rem → A (rem.drop k))
    (hT : ∀ {r rem}, W r rem → A rem → TwoBuf r rem) :
    ∀ (cs : List Call) {r : BufReader σ} {rem : Bytes}, W r rem → A rem → (∀ c ∈ cs, c.nonneg) →
    ∃ r', runCalls r cs = ((expectCalls rem cs).1.map .ok, r') ∧ W r' (expectCalls rem cs).2 := by
  intro cs
  induction cs with
  | nil => intro r rem h _ _; exact ⟨r, rfl, h⟩
  | cons c cs ih =>
    intro r rem h ha hc
    have hc1 := hc c (by simp)
    have : ∃ r', c.run r = (.ok (c.expect rem), r') ∧ W r' (rem.drop (c.expect rem).length) := by
      by_cases hs : c.simple = true
      · exact (exactRead hW).call h hc1 hs
      · cases c with
        | read n => simp [Call.simple] at hs
        | readline n =>
          cases n with
          | none => simp [Call.simple] at hs
          | some k =>
            have hk := hc1 k rfl
            obtain ⟨m, rfl⟩ : ∃ m : Nat, k = (m : Int) := ⟨_, (Int.toNat_of_nonneg hk).symm⟩
            obtain ⟨r', h1, h2⟩ := readline_some_exact hW h (hT h ha) m
            exact ⟨r', by simp only [Call.run, Call.expect, Int.toNat_natCast]; exact h1, by simpa [Call.expect] using h2⟩
    obtain ⟨r1, h1, h2⟩ := this
    obtain ⟨r2, h3, h4⟩ := ih h2 (hA _ ha) (fun c' hc' => hc c' (by simp [hc']))
    exact ⟨r2, by simp [runCalls, expectCalls, h1, h3], by simpa [expectCalls] using h4⟩

theorem plain_new (f : σ) {rem : Bytes} (hf : V f rem) {bs : Nat} (hb : 0 < bs) :
    ∃ r, BufReader.new f bs = .ok r ∧ Plain V (· = bs) r rem :=
  ⟨_, rfl, rfl, rfl, hb, rfl, rfl, rem, hf, rfl⟩

variable {IsMember : Bytes → Bytes → Prop} {P : Bytes → Nat → Prop}

theorem gz_new (L : LawfulGzip IsMember) (f : σ) {z d rest : Bytes} (hm : L.Holds z d rest) (hf : V f (z ++ rest))
    {bs : Nat} (hb : 0 < bs) (hP : P z bs) :
    ∃ r, BufReader.new f bs (some .gzip) = .ok r ∧ Gz L V P rest r d := by
  refine ⟨_, by simp [BufReader.new, L.codec_eq]; rfl, rfl, rfl, hb, rfl, [], z, d, [], d, z ++ rest, rfl, by simp, hm,
    rfl, rfl, hf, by simp, rfl, Or.inl rfl, hP, fun _ => rfl⟩

theorem fresh_new (L : LawfulGzip IsMember) (f : σ) {rem : Bytes} (hf : V f rem) {bs : Nat} (hb : 0 < bs)
    (hfirst : ∀ p s', PyStream.read f (some (bs : Int)) = (.ok p, s') → p ≠ [] →
      2 ≤ p.length ∧ ¬ [0x1f, 0x8b] <+: p) :
    ∃ r, BufReader.new f bs (some .gzip) = .ok r ∧ FreshPlain V (· = bs) r rem :=
  ⟨_, by simp [BufReader.new, L.codec_eq]; rfl, Or.inl ⟨rfl, rfl, rfl, hb, rfl, rfl, rfl, rfl, rfl, hf, hfirst⟩⟩

end BufReader

/-- The first raw read of a file that does not start with the gzip magic. -/
theorem FileObj.first_read {f : FileObj} {bs : Nat} (hb : 2 ≤ bs) (hc : ∀ c, f.caps.head? = some c → 2 ≤ c)
    (hl : f.rest ≠ [] → 2 ≤ f.rest.length) (hm : ¬ [0x1f, 0x8b] <+: f.rest) :
    ∀ p s', PyStream.read f (some (bs : Int)) = (.ok p, s') → p ≠ [] → 2 ≤ p.length ∧ ¬ [0x1f, 0x8b] <+: p := by
  intro p s' h hp
  have hn' : ¬ ((bs : Int) < 0) := by omega
  have hn0 : ¬ ((bs : Int) = 0) := by omega
  have key : ∃ m, 2 ≤ m ∧ p = f.rest.take m := by
    simp only [PyStream.read, FileObj.read, hn', hn0, if_false, Int.toNat_natCast] at h
    cases hcaps : f.caps with
    | nil =>
      rw [hcaps] at h
      simp only [Prod.mk.injEq, Except.ok.injEq] at h
      exact ⟨bs, hb, h.1.symm⟩
    | cons c cs =>
      rw [hcaps] at h
      simp only [Prod.mk.injEq, Except.ok.injEq] at h
      have := hc c (by rw [hcaps]; rfl)
      exact ⟨max 1 (min bs c), by omega, h.1.symm⟩
  obtain ⟨m, hm2, rfl⟩ := key
  have hne : f.rest ≠ [] := by intro h0; rw [h0] at hp; simp at hp
  refine ⟨by rw [List.length_take]; have := hl hne; omega, ?_⟩
  intro h1; exact hm (h1.trans (List.take_prefix m f.rest))

end Warcio
