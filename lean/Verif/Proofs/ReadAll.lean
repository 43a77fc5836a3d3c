import Verif.Proofs.Exact

/-! # Readers with `read_all_members` -/

namespace Warcio
namespace BufReader

set_option linter.unusedSectionVars false

variable {σ : Type} [Zlib] [PyStream σ] {V : σ → Bytes → Prop} {IsMember : Bytes → Bytes → Prop}

/-- A reader that goes through all members: `rem` is what is still to come of all of them,
`srem` the raw data still in the stream, `k` the number of members after the current one. -/
structure GzAllS (L : LawfulGzip IsMember) (srem : Bytes) (k : Nat) (r : BufReader σ)
    (rem : Bytes) : Prop where
  dtype : r.decompType = some .gzip
  chunk : r.chunk = none
  block : 0 < r.blockSize
  all : r.readAllMembers = true
  split : ∃ (hist : List Bytes) (z d o dr : Bytes) (ms : List (Bytes × Bytes)),
    r.decompressor = some { kind := .gzip, hist := hist } ∧
    (∀ ch ∈ hist, ch ≠ []) ∧ IsMember z d ∧ L.codec.run hist = some o ∧ d = o ++ dr ∧
    (∀ m ∈ ms, IsMember m.1 m.2) ∧
    hist.flatten ++ (r.startingData.getD [] ++ srem) = z ++ (ms.map Prod.fst).flatten ∧
    rem = r.buff.getD [] ++ (dr ++ (ms.map Prod.snd).flatten) ∧
    (hist = [] ∨ r.startingData.getD [] = []) ∧ ms.length = k

theorem gzAll_unused (L : LawfulGzip IsMember) {r : BufReader σ} {hist : List Bytes} {z d rest t : Bytes}
    (hd : r.decompressor = some { kind := .gzip, hist := hist }) (hc : ∀ ch ∈ hist, ch ≠ []) (hm : IsMember z d)
    (heq : hist.flatten ++ t = z ++ rest) (hu : r.unused ≠ []) : rest = r.unused ++ t := by
  obtain ⟨o, h1, h2, h3, h4⟩ := L.member hm hc (L.cmp heq)
  rw [unused_gz L hd] at hu ⊢
  rcases List.append_eq_append_iff.1 heq with ⟨a, ha, hb⟩ | ⟨a, ha, hb⟩
  · exfalso; apply hu; rw [h4, ha]; simp
  · have : L.codec.unused hist = a := by rw [h4, ha]; simp
    rw [this]; exact hb

/-- `empty` on an empty buffer: nothing happens, or the next member is started. -/
theorem gzAll_next (L : LawfulGzip IsMember) {r : BufReader σ} {k : Nat} {rem srem : Bytes} (h : GzAllS L srem k r rem)
    (hnb : r.noBuff = true) :
    (r.unused = [] ∧ r.empty = (true, r)) ∨
    (r.unused ≠ [] ∧ ∃ k', k = k' + 1 ∧ r.empty.1 = true ∧ GzAllS L srem k' r.empty.2 rem ∧
      r.empty.2.unused = [] ∧ r.empty.2.startingData.getD [] ≠ [] ∧ r.empty.2.noBuff = true ∧
      r.empty.2.stream = r.stream) := by
  obtain ⟨hist, z, d, o, dr, ms, hd, hc, hm, hrun, hdo, hms, heq, hrem, hfr, hk⟩ := h.split
  have hdu : Decompressor.unused { kind := .gzip, hist := hist } = r.unused := by simp [BufReader.unused, hd]
  by_cases hu : r.unused = []
  · left
    refine ⟨hu, ?_⟩
    simp [BufReader.empty, hnb, h.all, readNextMember, hd, hdu, hu]
  · right
    refine ⟨hu, ?_⟩
    have hsd : r.startingData.getD [] = [] := by
      rcases hfr with h0 | h0
      · exfalso; apply hu; rw [unused_gz L hd, h0]; exact L.unused_nil
      · exact h0
    rw [hsd, List.nil_append] at heq
    have hod := L.done_of_unused (L.holds hm _) hc hrun heq (by rw [← unused_gz L hd]; exact hu)
    have hdr : dr = [] := by
      rw [hdo] at hod
      have := congrArg List.length hod; simp at this; exact this
    have hrest := gzAll_unused L hd hc hm heq hu
    have he : r.empty = (true, { r with startingData := some r.unused, numBlockRead := 0, decompType := some .gzip,
                                        decompressor := some { kind := .gzip } }) := by
      simp only [BufReader.empty, hnb, h.all, if_true, readNextMember, hd, hdu, hu, if_false, initDecomp, h.dtype]
    cases ms with
    | nil =>
      simp at hrest
      exact absurd hrest.1 hu
    | cons m ms =>
      refine ⟨ms.length, by simpa using hk.symm, by rw [he], ?_, ?_, ?_, ?_, ?_⟩
      · rw [he]
        refine ⟨rfl, h.chunk, h.block, h.all, [], m.1, m.2, [], m.2, ms, rfl, by simp, hms m (by simp), rfl, rfl,
          fun x hx => hms x (by simp [hx]), ?_, ?_, Or.inl rfl, rfl⟩
        · simp only [Option.getD_some, List.flatten_nil, List.nil_append]
          rw [← hrest]; simp
        · rw [hrem, hdr]; simp
      · rw [he]; simp [BufReader.unused, Decompressor.unused, L.codec_eq, L.unused_nil]
      · rw [he]; simpa using hu
      · rw [he]; exact hnb
      · rw [he]

theorem gzAll_end (L : LawfulGzip IsMember) {r : BufReader σ} {k : Nat} {rem : Bytes} (h : GzAllS L [] k r rem)
    (hnb : r.noBuff = true) (hu : r.unused = []) (hsd : r.startingData.getD [] = []) : rem = [] := by
  obtain ⟨hist, z, d, o, dr, ms, hd, hc, hm, hrun, hdo, hms, heq, hrem, hfr, hk⟩ := h.split
  rw [hsd, List.append_nil, List.append_nil] at heq
  obtain ⟨o', h1, h2, h3, h4⟩ := L.member hm hc (Or.inr ⟨_, heq.symm⟩)
  rw [hrun] at h1; cases h1
  have hod := h3 ⟨_, heq.symm⟩
  have hdr : dr = [] := by
    rw [hdo] at hod
    have := congrArg List.length hod; simp at this; exact this
  have hz : (ms.map Prod.fst).flatten = [] := by
    rw [unused_gz L hd, h4, heq, List.drop_left] at hu; exact hu
  have hms0 : ms = [] := by
    cases ms with
    | nil => rfl
    | cons m ms =>
      obtain ⟨t, ht⟩ := L.magic (hms m (by simp))
      simp [← ht] at hz
  rw [hrem, noBuff_iff.1 hnb, hdr, hms0]; rfl

/-- Feeding a non-empty chunk. -/
theorem gzAll_feed (L : LawfulGzip IsMember) {r : BufReader σ} {k : Nat} {rem : Bytes} {srem srem' : Bytes}
    (h : GzAllS L srem k r rem)
    (hnb : r.noBuff = true) {p : Bytes} (s' : σ) {sd' : Option Bytes}
    (hp : p ≠ []) (hsd' : sd'.getD [] = []) (hcat : p ++ srem' = r.startingData.getD [] ++ srem) :
    GzAllS L srem' k (processRead { r with stream := s', startingData := sd' } p) rem ∧
    (processRead { r with stream := s', startingData := sd' } p).stream = s' ∧
    (processRead { r with stream := s', startingData := sd' } p).startingData = sd' := by
  obtain ⟨hist, z, d, o, dr, ms, hd, hc, hm, hrun, hdo, hms, heq, hrem, hfr, hk⟩ := h.split
  rw [← hcat] at heq
  obtain ⟨o2, dr2, e1, e2, e3, e4, e5⟩ := gz_processRead L (r := { r with stream := s', startingData := sd' })
    hd hc (L.holds hm _) hrun hdo hp heq
  rw [e1]
  refine ⟨⟨h.dtype, h.chunk, h.block, h.all, hist ++ [p], z, d, o ++ o2, dr2, ms, rfl, e4, hm, e2,
    by rw [hdo, e3, List.append_assoc], hms, ?_, ?_, Or.inr hsd', hk⟩, rfl, rfl⟩
  · simp only [hsd', List.nil_append]; exact e5
  · simp only [Option.getD_some]
    rw [hrem, noBuff_iff.1 hnb, e3]; simp

/-- The view on the stream of the wrapped file is any short-read view. -/
def GzAll (L : LawfulGzip IsMember) (V : σ → Bytes → Prop) (k : Nat) (r : BufReader σ) (rem : Bytes) : Prop :=
  ∃ srem, V r.stream srem ∧ GzAllS L srem k r rem

/-- What a fill achieves: data in the buffer, or the end, or a finished member with unused
data behind it. -/
def Progress (r : BufReader σ) (rem : Bytes) : Prop :=
  r.noBuff = false ∨ rem = [] ∨ r.unused ≠ []

theorem gzAll_fillLoop (L : LawfulGzip IsMember) (hV : Short V) : ∀ (fuel : Nat) (data : Bytes) (r : BufReader σ)
    (rem srem : Bytes) (k : Nat), V r.stream srem → GzAllS L srem k r rem → r.startingData.getD [] = [] →
    srem.length + 1 < fuel → (data = [] → rem = []) →
    ∃ r', fillLoop fuel data r = (.ok (), r') ∧ GzAll L V k r' rem ∧ Progress r' rem := by
  intro fuel
  induction fuel with
  | zero => intros; omega
  | succ fuel ih =>
    intro data r rem srem k hs h hsd hf hdata
    unfold fillLoop
    by_cases hcond : (!data.isEmpty && r.decompressor.isSome && r.unused.isEmpty) = true
    · rw [if_pos hcond]
      have hu : r.unused = [] := by
        simp only [Bool.and_eq_true, List.isEmpty_iff] at hcond; exact hcond.2
      cases hnb : r.noBuff with
      | false =>
        rw [empty_of_noBuff_false hnb]
        exact ⟨r, by simp, ⟨srem, hs, h⟩, Or.inl hnb⟩
      | true =>
        rcases gzAll_next L h hnb with ⟨_, he⟩ | ⟨hu', _⟩
        · rw [he]
          simp only [if_true]
          obtain ⟨p, rem', s', hp1, hp2, hp3, hp4, hp5⟩ := hV.read hs r.blockSize h.block
          simp only [readStream, hp4]
          by_cases hpe : p = []
          · have hs0 := hp3 hpe
            subst hpe
            rw [List.nil_append] at hp1
            rw [hs0] at h
            have hrem := gzAll_end L h hnb hu hsd
            obtain ⟨hist, z, d, o, dr, ms, hd, hc, hm, hrun, hdo, hms, heq, hrem2, hfr, hk⟩ := h.split
            obtain ⟨fuel, rfl⟩ : ∃ f, fuel = f + 1 := ⟨fuel - 1, by omega⟩
            refine ⟨{ r with stream := s', buff := none }, by simp [fillLoop, processRead], ⟨rem', hp5, ?_⟩, Or.inr (Or.inl hrem)⟩
            rw [← hp1, hs0]
            refine ⟨h.dtype, h.chunk, h.block, h.all, hist, z, d, o, dr, ms, hd, hc, hm, hrun, hdo, hms, heq, ?_, hfr, hk⟩
            rw [hrem2, noBuff_iff.1 hnb]; rfl
          · have hpl : 0 < p.length := List.length_pos_iff.2 hpe
            have hsl : srem.length = p.length + rem'.length := by rw [hp1]; simp
            obtain ⟨e1, e2, e3⟩ := gzAll_feed L h hnb s' (sd' := r.startingData) hpe hsd (by rw [hsd, ← hp1]; rfl)
            exact ih p _ rem rem' k (by rw [e2]; exact hp5) e1 (by rw [e3]; exact hsd) (by omega) (fun h => absurd h hpe)
        · exact absurd hu hu'
    · rw [if_neg hcond]
      refine ⟨r, rfl, ⟨srem, hs, h⟩, ?_⟩
      by_cases hde : data = []
      · exact Or.inr (Or.inl (hdata hde))
      · right; right
        intro h0; apply hcond
        obtain ⟨hist, z, d, o, dr, ms, hd, _⟩ := h.split
        rw [h0, hd]
        cases data with
        | nil => exact absurd rfl hde
        | cons _ _ => rfl

theorem gzAll_fill (L : LawfulGzip IsMember) (hV : Short V) {r : BufReader σ} {k : Nat} {rem : Bytes}
    (h : GzAll L V k r rem) : ∃ r' k', r.fillbuff = (.ok (), r') ∧ GzAll L V k' r' rem ∧ k' ≤ k ∧ Progress r' rem := by
  obtain ⟨srem, hs, h⟩ := h
  have hfb : r.fillbuff = r.baseFill := by simp [fillbuff, h.chunk]
  rw [hfb]
  unfold baseFill
  -- after `empty` on an empty buffer nothing is unused
  have main : ∀ (r : BufReader σ) (k' : Nat), V r.stream srem → GzAllS L srem k' r rem → r.noBuff = true → r.unused = [] →
      ∃ r', (match r.nextData with
        | (.error e, r) => (.error e, r)
        | (.ok data, r) => fillLoop (PyStream.bound r.stream + 2) data (r.processRead data)) = (.ok (), r') ∧
        GzAll L V k' r' rem ∧ Progress r' rem := by
    intro r k' hs h hnb hu
    obtain ⟨p, s', sd', srem', e1, e2, e3, e4, e6⟩ := nextData_spec hV hs h.block
    rw [e1]
    simp only
    rw [e6, List.nil_append] at e3
    by_cases hpe : p = []
    · have h0 := e4 hpe
      have hs0 := (List.append_eq_nil_iff.1 h0).2
      have hsd0 := (List.append_eq_nil_iff.1 h0).1
      subst hpe
      rw [h0, List.nil_append] at e3
      rw [hs0] at h
      have hrem := gzAll_end L h hnb hu hsd0
      obtain ⟨hist, z, d, o, dr, ms, hd, hc, hm, hrun, hdo, hms, heq, hrem2, hfr, hk⟩ := h.split
      refine ⟨{ r with stream := s', startingData := sd', buff := none }, by simp [fillLoop, processRead], ⟨srem', e2, ?_⟩, Or.inr (Or.inl hrem)⟩
      rw [e3]
      refine ⟨h.dtype, h.chunk, h.block, h.all, hist, z, d, o, dr, ms, hd, hc, hm, hrun, hdo, hms, ?_, ?_, Or.inr e6, hk⟩
      · rw [← heq, hsd0, e6]
      · rw [hrem2, noBuff_iff.1 hnb]; rfl
    · obtain ⟨f1, f2, f3⟩ := gzAll_feed L h hnb s' (sd' := sd') hpe e6 e3
      refine gzAll_fillLoop L hV _ p _ rem srem' k' (by rw [f2]; exact e2) f1 (by rw [f3]; exact e6) ?_ (fun h => absurd h hpe)
      have := hV.bound e2
      omega
  cases hnb : r.noBuff with
  | false =>
    rw [empty_of_noBuff_false hnb]
    exact ⟨r, k, by simp, ⟨srem, hs, h⟩, Nat.le_refl _, Or.inl hnb⟩
  | true =>
    rcases gzAll_next L h hnb with ⟨hu, he⟩ | ⟨hu', k', hk', he1, h2, hu, hsd, hnb', hst⟩
    · rw [he]
      have hrl : ¬ (0 < r.remLength) := by rw [remLength_noBuff hnb, hu]; simp [len]
      simp only [Bool.not_true, Bool.false_eq_true, if_false, hrl]
      obtain ⟨r', m1, m2, m3⟩ := main r k hs h hnb hu
      exact ⟨r', k, m1, m2, Nat.le_refl _, m3⟩
    · have hrl : ¬ (0 < r.empty.2.remLength) := by rw [remLength_noBuff hnb', hu]; simp [len]
      simp only [he1, Bool.not_true, Bool.false_eq_true, if_false, hrl]
      obtain ⟨r', m1, m2, m3⟩ := main r.empty.2 k' (by rw [hst]; exact hs) h2 hnb' hu
      exact ⟨r', k', m1, m2, by omega, m3⟩

/-- The laws of a reader whose fills may come out empty before the end. -/
structure WeakFill (W : Nat → BufReader σ → Bytes → Prop) : Prop where
  pre : ∀ {k r rem}, W k r rem → r.buff.getD [] <+: rem
  fill : ∀ {k r rem}, W k r rem → ∃ r' k', r.fillbuff = (.ok (), r') ∧ W k' r' rem ∧ k' ≤ k ∧
    (r'.noBuff = false ∨ ∃ k'', W k'' r'.empty.2 rem ∧ k'' ≤ k' ∧ (rem = [] ∨ k'' < k'))
  take : ∀ {k r rem}, W k r rem → ∀ j, j ≤ (r.buff.getD []).length →
    W k { r with buff := some ((r.buff.getD []).drop j) } (rem.drop j)
  bound : ∀ {k r rem}, W k r rem → rem.length ≤ r.bound

theorem gzAll_weakFill (L : LawfulGzip IsMember) (hV : Short V) : WeakFill (GzAll L V (σ := σ)) where
  pre := by
    rintro k r rem ⟨srem, hs, h⟩
    obtain ⟨hist, z, d, o, dr, ms, hd, hc, hm, hrun, hdo, hms, heq, hrem, hfr, hk⟩ := h.split
    exact ⟨_, hrem.symm⟩
  fill := by
    intro k r rem h
    obtain ⟨r', k', h1, h2, h3, h4⟩ := gzAll_fill L hV h
    refine ⟨r', k', h1, h2, h3, ?_⟩
    rcases Bool.eq_false_or_eq_true r'.noBuff with hnb | hnb
    · right
      obtain ⟨srem, hs, h2⟩ := h2
      rcases gzAll_next L h2 hnb with ⟨hu, he⟩ | ⟨hu', k'', hk', he1, h5, hu, hsd, hnb', hst⟩
      · refine ⟨k', by rw [he]; exact ⟨srem, hs, h2⟩, Nat.le_refl _, ?_⟩
        rcases h4 with h4 | h4 | h4
        · rw [hnb] at h4; cases h4
        · exact Or.inl h4
        · exact absurd hu h4
      · exact ⟨k'', ⟨srem, by rw [hst]; exact hs, h5⟩, by omega, Or.inr (by omega)⟩
    · exact Or.inl hnb
  take := by
    rintro k r rem ⟨srem, hs, h⟩ j hj
    obtain ⟨hist, z, d, o, dr, ms, hd, hc, hm, hrun, hdo, hms, heq, hrem, hfr, hk⟩ := h.split
    refine ⟨srem, hs, h.dtype, h.chunk, h.block, h.all, hist, z, d, o, dr, ms, hd, hc, hm, hrun, hdo, hms, heq, ?_, hfr, hk⟩
    rw [hrem, List.drop_append_of_le_length hj]; rfl
  bound := by
    rintro k r rem ⟨srem, hs, h⟩
    obtain ⟨hist, z, d, o, dr, ms, hd, hc, hm, hrun, hdo, hms, heq, hrem, hfr, hk⟩ := h.split
    have hb := hV.bound hs
    have h1 : ∀ ms : List (Bytes × Bytes), (∀ m ∈ ms, IsMember m.1 m.2) →
        (ms.map Prod.snd).flatten.length ≤ Zlib.ratio * (ms.map Prod.fst).flatten.length := by
      intro ms
      induction ms with
      | nil => simp
      | cons m ms ih =>
        intro h
        have := ih (fun x hx => h x (by simp [hx]))
        have h2 := L.ratio (h m (by simp))
        simp only [List.map_cons, List.flatten_cons, List.length_append, Nat.mul_add]
        omega
    have h2 := h1 ms hms
    have h3 := L.ratio hm
    have h4 : dr.length ≤ d.length := by rw [hdo]; simp
    have h5 := congrArg List.length heq
    simp only [List.length_append] at h5
    unfold BufReader.bound
    rw [hrem, hd]
    simp only [List.length_append]
    have h6 : Zlib.ratio * (z.length + (ms.map Prod.fst).flatten.length) ≤
        (Zlib.ratio + 1) * (hist.flatten.length + (r.startingData.getD []).length + PyStream.bound r.stream) := by
      apply Nat.mul_le_mul <;> omega
    rw [Nat.mul_add] at h6
    omega

variable {W : Nat → BufReader σ → Bytes → Prop}

theorem readLoop_weak (hW : WeakFill W) : ∀ (fuel : Nat) (n : Nat) (acc : Bytes) (k : Nat) (r : BufReader σ)
    (rem : Bytes), W k r rem → rem.length + 1 < fuel →
    ∃ r' j k', readLoop fuel (some (n : Int)) acc r = (.ok (acc ++ rem.take j), r') ∧ W k' r' (rem.drop j) ∧
      j ≤ n ∧ j ≤ rem.length ∧ k' ≤ k ∧ (j < n → rem.drop j = [] ∨ k' < k) := by
  intro fuel
  induction fuel with
  | zero => intros; omega
  | succ fuel ih =>
    intro n acc k r rem hr hf
    unfold readLoop
    by_cases hn : n = 0
    · subst hn
      exact ⟨r, 0, k, by simp [wantsMore], by simpa using hr, by omega, by omega, Nat.le_refl _, by omega⟩
    · have hc : wantsMore (some (n : Int)) = true := by simp [wantsMore]; omega
      rw [if_pos hc]
      obtain ⟨r1, k1, h1, h2, h3, h4⟩ := hW.fill hr
      rw [h1]
      simp only
      rcases Bool.eq_false_or_eq_true r1.noBuff with hnb | hnb
      · rcases h4 with h4 | ⟨k2, h4, h5, h6⟩
        · rw [hnb] at h4; cases h4
        · have he : r1.empty.1 = true := by rw [empty_fst, hnb]
          simp only [he, if_true]
          refine ⟨r1.empty.2, 0, k2, by rw [List.take_zero, List.append_nil], by simpa using h4, by omega, by omega, by omega, fun _ => ?_⟩
          rcases h6 with h6 | h6
          · left; simpa using h6
          · right; omega
      · rw [empty_of_noBuff_false hnb]
        simp only [Bool.false_eq_true, if_false]
        obtain ⟨t, ht⟩ := hW.pre h2
        generalize hb : r1.buff.getD [] = b at ht
        have hbne : b ≠ [] := by
          intro h0
          have := noBuff_iff.2 (hb.trans h0)
          simp [this] at hnb
        have hbl : 0 < b.length := List.length_pos_iff.2 hbne
        have hbr : b.length ≤ rem.length := by rw [← ht]; simp
        have ha : askLen (some (n : Int)) b.length = n := by
          have : ¬ ((n : Int) < 0) := by omega
          simp [askLen, this]
        have hd : b.drop n = b.drop (min n b.length) := by
          by_cases hm : n ≤ b.length
          · rw [Nat.min_eq_left hm]
          · rw [Nat.min_eq_right (by omega), List.drop_of_length_le (by omega), List.drop_length]
        have htk : b.take n = rem.take (min n b.length) := by
          rw [← ht, List.take_append_of_le_length (by omega), ← List.take_take, List.take_length]
        have hw := hW.take h2 (min n b.length) (by rw [hb]; omega)
        rw [hb] at hw
        simp only [buffRead, hb, ha, hd, htk, Option.map_some]
        have hl : (n : Int) - len (rem.take (min n b.length)) = ((n - min n b.length : Nat) : Int) := by
          simp only [len, List.length_take]; omega
        rw [hl]
        obtain ⟨r', j, k', g1, g2, g3, g4, g5, g6⟩ := ih (n - min n b.length) (acc ++ rem.take (min n b.length)) k1 _ _ hw
          (by simp only [List.length_drop]; omega)
        refine ⟨r', min n b.length + j, k', ?_, ?_, by omega, by simp only [List.length_drop] at g4; omega, by omega, ?_⟩
        · rw [g1, List.append_assoc, List.take_add]
        · rw [List.drop_drop] at g2; exact g2
        · intro hj
          rcases g6 (by omega) with g6 | g6
          · left; rw [List.drop_drop] at g6; exact g6
          · right; omega

theorem read_weak (hW : WeakFill W) {k : Nat} {r : BufReader σ} {rem : Bytes} (h : W k r rem) (n : Nat) :
    ∃ r' j k', r.read (some (n : Int)) = (.ok (rem.take j), r') ∧ W k' r' (rem.drop j) ∧
      j ≤ n ∧ j ≤ rem.length ∧ k' ≤ k ∧ (j < n → rem.drop j = [] ∨ k' < k) := by
  have hb := hW.bound h
  obtain ⟨r', j, k', h1, h2⟩ := readLoop_weak hW (r.bound + 2) n [] k r rem h (by omega)
  exact ⟨r', j, k', by simpa [BufReader.read] using h1, h2⟩

end BufReader
end Warcio
