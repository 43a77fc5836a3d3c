import Verif.Proofs.ReadAll
import Verif.Model.Tools
import Verif.Spec.Runs

/-! # Readers with `read_all_members`: which members are still to come -/

namespace Warcio

namespace BufReader

set_option linter.unusedSectionVars false

variable {σ : Type} [Zlib] [PyStream σ] {V : σ → Bytes → Prop} {IsMember : Bytes → Bytes → Prop}

/-- A reader that goes through all members: `c` is what is still to come of the current one, `ds` is the data of those
after it, `srem` the raw data still in the stream. -/
structure GzRunS (L : LawfulGzip IsMember) (srem c : Bytes) (ds : List Bytes) (r : BufReader σ) : Prop where
  dtype : r.decompType = some .gzip
  chunk : r.chunk = none
  block : 0 < r.blockSize
  all : r.readAllMembers = true
  split : ∃ (hist : List Bytes) (z d o dr : Bytes) (ms : List (Bytes × Bytes)),
    r.decompressor = some { kind := .gzip, hist := hist } ∧
    (∀ ch ∈ hist, ch ≠ []) ∧ IsMember z d ∧ L.codec.run hist = some o ∧ d = o ++ dr ∧
    (∀ m ∈ ms, IsMember m.1 m.2) ∧
    hist.flatten ++ (r.startingData.getD [] ++ srem) = z ++ (ms.map Prod.fst).flatten ∧
    c = r.buff.getD [] ++ dr ∧
    (hist = [] ∨ r.startingData.getD [] = []) ∧ ms.map Prod.snd = ds

theorem GzRunS.forget {L : LawfulGzip IsMember} {srem c : Bytes} {ds : List Bytes} {r : BufReader σ} (h : GzRunS L srem c ds r) :
    GzAllS L srem ds.length r (c ++ ds.flatten) := by
  obtain ⟨hist, z, d, o, dr, ms, hd, hc, hm, hrun, hdo, hms, heq, hrem, hfr, hk⟩ := h.split
  refine ⟨h.dtype, h.chunk, h.block, h.all, hist, z, d, o, dr, ms, hd, hc, hm, hrun, hdo, hms, heq, ?_, hfr, ?_⟩
  · rw [hrem, ← hk, List.append_assoc]
  · rw [← hk, List.length_map]

/-- `empty` on an empty buffer: nothing happens, or the next member is started. -/
theorem run_next (L : LawfulGzip IsMember) {r : BufReader σ} {c srem : Bytes} {ds : List Bytes} (h : GzRunS L srem c ds r)
    (hnb : r.noBuff = true) :
    (r.unused = [] ∧ r.empty = (true, r)) ∨
    (r.unused ≠ [] ∧ c = [] ∧ ∃ d ds', ds = d :: ds' ∧ r.empty.1 = true ∧ GzRunS L srem d ds' r.empty.2 ∧
      r.empty.2.unused = [] ∧ r.empty.2.startingData.getD [] ≠ [] ∧ r.empty.2.noBuff = true ∧
      r.empty.2.stream = r.stream) := by
  obtain ⟨hist, z, d, o, dr, ms, hd, hc, hm, hrun, hdo, hms, heq, hrem, hfr, hk⟩ := h.split
  have hdu : Decompressor.unused { kind := .gzip, hist := hist } = r.unused := by simp [BufReader.unused, hd]
  by_cases hu : r.unused = []
  · left
    refine ⟨hu, ?_⟩
    simp [BufReader.empty, hnb, h.all, readNextMember, hd, hdu, hu]
  · right
    refine ⟨hu, ?_⟩
    have hsd : r.startingData.getD [] = [] := by
      rcases hfr with h0 | h0
      · exfalso; apply hu; rw [unused_gz L hd, h0]; exact L.unused_nil
      · exact h0
    rw [hsd, List.nil_append] at heq
    have hod := L.done_of_unused (L.holds hm _) hc hrun heq (by rw [← unused_gz L hd]; exact hu)
    have hdr : dr = [] := by
      rw [hdo] at hod
      have := congrArg List.length hod; simp at this; exact this
    have hrest := gzAll_unused L hd hc hm heq hu
    have he : r.empty = (true, { r with startingData := some r.unused, numBlockRead := 0, decompType := some .gzip,
                                        decompressor := some { kind := .gzip } }) := by
      simp only [BufReader.empty, hnb, h.all, if_true, readNextMember, hd, hdu, hu, if_false, initDecomp, h.dtype]
    refine ⟨by rw [hrem, noBuff_iff.1 hnb, hdr]; rfl, ?_⟩
    cases ms with
    | nil =>
      simp at hrest
      exact absurd hrest.1 hu
    | cons m ms =>
      refine ⟨m.2, ms.map Prod.snd, by rw [← hk]; rfl, by rw [he], ?_, ?_, ?_, ?_, ?_⟩
      · rw [he]
        refine ⟨rfl, h.chunk, h.block, h.all, [], m.1, m.2, [], m.2, ms, rfl, by simp, hms m (by simp), rfl, rfl,
          fun x hx => hms x (by simp [hx]), ?_, ?_, Or.inl rfl, rfl⟩
        · simp only [Option.getD_some, List.flatten_nil, List.nil_append]
          rw [← hrest]; simp
        · simp only [noBuff_iff.1 hnb]; rfl
      · rw [he]; simp [BufReader.unused, Decompressor.unused, L.codec_eq, L.unused_nil]
      · rw [he]; simpa using hu
      · rw [he]; exact hnb
      · rw [he]

theorem run_end (L : LawfulGzip IsMember) {r : BufReader σ} {c : Bytes} {ds : List Bytes} (h : GzRunS L [] c ds r)
    (hnb : r.noBuff = true) (hu : r.unused = []) (hsd : r.startingData.getD [] = []) : c = [] ∧ ds = [] := by
  obtain ⟨hist, z, d, o, dr, ms, hd, hc, hm, hrun, hdo, hms, heq, hrem, hfr, hk⟩ := h.split
  rw [hsd, List.append_nil, List.append_nil] at heq
  obtain ⟨o', h1, h2, h3, h4⟩ := L.member hm hc (Or.inr ⟨_, heq.symm⟩)
  rw [hrun] at h1; cases h1
  have hod := h3 ⟨_, heq.symm⟩
  have hdr : dr = [] := by
    rw [hdo] at hod
    have := congrArg List.length hod; simp at this; exact this
  have hz : (ms.map Prod.fst).flatten = [] := by
    rw [unused_gz L hd, h4, heq, List.drop_left] at hu; exact hu
  have hms0 : ms = [] := by
    cases ms with
    | nil => rfl
    | cons m ms =>
      obtain ⟨t, ht⟩ := L.magic (hms m (by simp))
      simp [← ht] at hz
  refine ⟨by rw [hrem, noBuff_iff.1 hnb, hdr]; rfl, by rw [← hk, hms0]; rfl⟩

/-- Feeding a non-empty chunk. -/
theorem run_feed (L : LawfulGzip IsMember) {r : BufReader σ} {c : Bytes} {ds : List Bytes} {srem srem' : Bytes}
    (h : GzRunS L srem c ds r)
    (hnb : r.noBuff = true) {p : Bytes} (s' : σ) {sd' : Option Bytes}
    (hp : p ≠ []) (hsd' : sd'.getD [] = []) (hcat : p ++ srem' = r.startingData.getD [] ++ srem) :
    GzRunS L srem' c ds (processRead { r with stream := s', startingData := sd' } p) ∧
    (processRead { r with stream := s', startingData := sd' } p).stream = s' ∧
    (processRead { r with stream := s', startingData := sd' } p).startingData = sd' := by
  obtain ⟨hist, z, d, o, dr, ms, hd, hc, hm, hrun, hdo, hms, heq, hrem, hfr, hk⟩ := h.split
  rw [← hcat] at heq
  obtain ⟨o2, dr2, e1, e2, e3, e4, e5⟩ := gz_processRead L (r := { r with stream := s', startingData := sd' })
    hd hc (L.holds hm _) hrun hdo hp heq
  rw [e1]
  refine ⟨⟨h.dtype, h.chunk, h.block, h.all, hist ++ [p], z, d, o ++ o2, dr2, ms, rfl, e4, hm, e2,
    by rw [hdo, e3, List.append_assoc], hms, ?_, ?_, Or.inr hsd', hk⟩, rfl, rfl⟩
  · simp only [hsd', List.nil_append]; exact e5
  · simp only [Option.getD_some]
    rw [hrem, noBuff_iff.1 hnb, e3]; simp

/-- The view on the stream of the wrapped file is any short-read view. -/
def GzRun (L : LawfulGzip IsMember) (V : σ → Bytes → Prop) (c : Bytes) (ds : List Bytes) (r : BufReader σ) : Prop :=
  ∃ srem, V r.stream srem ∧ GzRunS L srem c ds r

/-- What a fill achieves: data in the buffer, or the end, or a finished member with unused
data behind it. -/
def RunProgress (r : BufReader σ) (c : Bytes) (ds : List Bytes) : Prop :=
  r.noBuff = false ∨ (c = [] ∧ ds = []) ∨ r.unused ≠ []

theorem run_fillLoop (L : LawfulGzip IsMember) (hV : Short V) : ∀ (fuel : Nat) (data : Bytes) (r : BufReader σ)
    (c srem : Bytes) (ds : List Bytes), V r.stream srem → GzRunS L srem c ds r → r.startingData.getD [] = [] →
    srem.length + 1 < fuel → (data = [] → c = [] ∧ ds = []) →
    ∃ r', fillLoop fuel data r = (.ok (), r') ∧ GzRun L V c ds r' ∧ RunProgress r' c ds := by
  intro fuel
  induction fuel with
  | zero => intros; omega
  | succ fuel ih =>
    intro data r c srem ds hs h hsd hf hdata
    unfold fillLoop
    by_cases hcond : (!data.isEmpty && r.decompressor.isSome && r.unused.isEmpty) = true
    · rw [if_pos hcond]
      have hu : r.unused = [] := by
        simp only [Bool.and_eq_true, List.isEmpty_iff] at hcond; exact hcond.2
      cases hnb : r.noBuff with
      | false =>
        rw [empty_of_noBuff_false hnb]
        exact ⟨r, by simp, ⟨srem, hs, h⟩, Or.inl hnb⟩
      | true =>
        rcases run_next L h hnb with ⟨_, he⟩ | ⟨hu', _⟩
        · rw [he]
          simp only [if_true]
          obtain ⟨p, rem', s', hp1, hp2, hp3, hp4, hp5⟩ := hV.read hs r.blockSize h.block
          simp only [readStream, hp4]
          by_cases hpe : p = []
          · have hs0 := hp3 hpe
            subst hpe
            rw [List.nil_append] at hp1
            rw [hs0] at h
            have hrem := run_end L h hnb hu hsd
            obtain ⟨hist, z, d, o, dr, ms, hd, hc, hm, hrun, hdo, hms, heq, hrem2, hfr, hk⟩ := h.split
            obtain ⟨fuel, rfl⟩ : ∃ f, fuel = f + 1 := ⟨fuel - 1, by omega⟩
            refine ⟨{ r with stream := s', buff := none }, by simp [fillLoop, processRead], ⟨rem', hp5, ?_⟩, Or.inr (Or.inl hrem)⟩
            rw [← hp1, hs0]
            refine ⟨h.dtype, h.chunk, h.block, h.all, hist, z, d, o, dr, ms, hd, hc, hm, hrun, hdo, hms, heq, ?_, hfr, hk⟩
            rw [hrem2, noBuff_iff.1 hnb]; rfl
          · have hpl : 0 < p.length := List.length_pos_iff.2 hpe
            have hsl : srem.length = p.length + rem'.length := by rw [hp1]; simp
            obtain ⟨e1, e2, e3⟩ := run_feed L h hnb s' (sd' := r.startingData) hpe hsd (by rw [hsd, ← hp1]; rfl)
            exact ih p _ c rem' ds (by rw [e2]; exact hp5) e1 (by rw [e3]; exact hsd) (by omega) (fun h => absurd h hpe)
        · exact absurd hu hu'
    · rw [if_neg hcond]
      refine ⟨r, rfl, ⟨srem, hs, h⟩, ?_⟩
      by_cases hde : data = []
      · exact Or.inr (Or.inl (hdata hde))
      · right; right
        intro h0; apply hcond
        obtain ⟨hist, z, d, o, dr, ms, hd, _⟩ := h.split
        rw [h0, hd]
        cases data with
        | nil => exact absurd rfl hde
        | cons _ _ => rfl

theorem run_fill (L : LawfulGzip IsMember) (hV : Short V) {r : BufReader σ} {c : Bytes} {ds : List Bytes}
    (h : GzRun L V c ds r) : ∃ r' c' ds', r.fillbuff = (.ok (), r') ∧ GzRun L V c' ds' r' ∧ (c' = c ∧ ds' = ds ∨ c = [] ∧ ds = c' :: ds') ∧ RunProgress r' c' ds' := by
  obtain ⟨srem, hs, h⟩ := h
  have hfb : r.fillbuff = r.baseFill := by simp [fillbuff, h.chunk]
  rw [hfb]
  unfold baseFill
  -- after `empty` on an empty buffer nothing is unused
  have main : ∀ (r : BufReader σ) (c : Bytes) (ds : List Bytes), V r.stream srem → GzRunS L srem c ds r → r.noBuff = true → r.unused = [] →
      ∃ r', (match r.nextData with
        | (.error e, r) => (.error e, r)
        | (.ok data, r) => fillLoop (PyStream.bound r.stream + 2) data (r.processRead data)) = (.ok (), r') ∧
        GzRun L V c ds r' ∧ RunProgress r' c ds := by
    intro r c ds hs h hnb hu
    obtain ⟨p, s', sd', srem', e1, e2, e3, e4, e6⟩ := nextData_spec hV hs h.block
    rw [e1]
    simp only
    rw [e6, List.nil_append] at e3
    by_cases hpe : p = []
    · have h0 := e4 hpe
      have hs0 := (List.append_eq_nil_iff.1 h0).2
      have hsd0 := (List.append_eq_nil_iff.1 h0).1
      subst hpe
      rw [h0, List.nil_append] at e3
      rw [hs0] at h
      have hrem := run_end L h hnb hu hsd0
      obtain ⟨hist, z, d, o, dr, ms, hd, hc, hm, hrun, hdo, hms, heq, hrem2, hfr, hk⟩ := h.split
      refine ⟨{ r with stream := s', startingData := sd', buff := none }, by simp [fillLoop, processRead], ⟨srem', e2, ?_⟩, Or.inr (Or.inl hrem)⟩
      rw [e3]
      refine ⟨h.dtype, h.chunk, h.block, h.all, hist, z, d, o, dr, ms, hd, hc, hm, hrun, hdo, hms, ?_, ?_, Or.inr e6, hk⟩
      · rw [← heq, hsd0, e6]
      · rw [hrem2, noBuff_iff.1 hnb]; rfl
    · obtain ⟨f1, f2, f3⟩ := run_feed L h hnb s' (sd' := sd') hpe e6 e3
      refine run_fillLoop L hV _ p _ c srem' ds (by rw [f2]; exact e2) f1 (by rw [f3]; exact e6) ?_ (fun h => absurd h hpe)
      have := hV.bound e2
      omega
  cases hnb : r.noBuff with
  | false =>
    rw [empty_of_noBuff_false hnb]
    exact ⟨r, c, ds, by simp, ⟨srem, hs, h⟩, .inl ⟨rfl, rfl⟩, Or.inl hnb⟩
  | true =>
    rcases run_next L h hnb with ⟨hu, he⟩ | ⟨hu', hc0, d, ds', hk', he1, h2, hu, hsd, hnb', hst⟩
    · rw [he]
      have hrl : ¬ (0 < r.remLength) := by rw [remLength_noBuff hnb, hu]; simp [len]
      simp only [Bool.not_true, Bool.false_eq_true, if_false, hrl]
      obtain ⟨r', m1, m2, m3⟩ := main r c ds hs h hnb hu
      exact ⟨r', c, ds, m1, m2, .inl ⟨rfl, rfl⟩, m3⟩
    · have hrl : ¬ (0 < r.empty.2.remLength) := by rw [remLength_noBuff hnb', hu]; simp [len]
      simp only [he1, Bool.not_true, Bool.false_eq_true, if_false, hrl]
      obtain ⟨r', m1, m2, m3⟩ := main r.empty.2 d ds' (by rw [hst]; exact hs) h2 hnb' hu
      exact ⟨r', d, ds', m1, m2, .inr ⟨hc0, hk'⟩, m3⟩

/-- Taking data out of the buffer. -/
theorem run_take {L : LawfulGzip IsMember} {r : BufReader σ} {c : Bytes} {ds : List Bytes} (h : GzRun L V c ds r) (j : Nat) (hj : j ≤ (r.buff.getD []).length) :
    GzRun L V (c.drop j) ds { r with buff := some ((r.buff.getD []).drop j) } ∧ c.take j = (r.buff.getD []).take j ∧ j ≤ c.length := by
  obtain ⟨srem, hs, h⟩ := h
  obtain ⟨hist, z, d, o, dr, ms, hd, hc, hm, hrun, hdo, hms, heq, hrem, hfr, hk⟩ := h.split
  refine ⟨⟨srem, hs, h.dtype, h.chunk, h.block, h.all, hist, z, d, o, dr, ms, hd, hc, hm, hrun, hdo, hms, heq, ?_, hfr, hk⟩, ?_, ?_⟩
  · rw [hrem, List.drop_append_of_le_length hj]; rfl
  · rw [hrem, List.take_append_of_le_length hj]
  · rw [hrem, List.length_append]; omega

/-- With `t` bytes of a block of `n` to go, the block does not end behind a whole member before the last one. -/
def Aside (n t : Nat) (c : Bytes) (ds : List Bytes) : Prop :=
  (∀ i < ds.length, (c.length + (ds.take i).flatten.length) % n ≠ t % n) ∧ NoRun n ds

theorem Aside.next {n t : Nat} {d : Bytes} {ds : List Bytes} (h : Aside n t [] (d :: ds)) : Aside n t d ds := by
  refine ⟨fun i hi => ?_, h.2.2⟩
  have := h.1 (i + 1) (by simpa using hi)
  simpa using this

theorem Aside.take {n t : Nat} {c : Bytes} {ds : List Bytes} (h : Aside n t c ds) {j : Nat} (hj : j ≤ c.length) (ht : j ≤ t) : Aside n (t - j) (c.drop j) ds := by
  refine ⟨fun i hi e => h.1 i hi ?_, h.2⟩
  rw [List.length_drop] at e
  have e1 : c.length + (ds.take i).flatten.length = (c.length - j + (ds.take i).flatten.length) + j := by omega
  have e2 : t = (t - j) + j := by omega
  rw [e1, e2]
  exact Nat.add_mod_eq_add_mod_right j e

theorem Aside.done {n : Nat} {c : Bytes} {ds : List Bytes} (h : Aside n 0 c ds) : NoRun n (c :: ds) :=
  ⟨fun i hi => by have := h.1 i hi; simpa using this, h.2⟩

theorem Aside.start {n : Nat} {c : Bytes} {ds : List Bytes} (h : NoRun n (c :: ds)) : Aside n n c ds :=
  ⟨fun i hi => by rw [Nat.mod_self]; exact h.1 i hi, h.2⟩

theorem run_readLoop (L : LawfulGzip IsMember) (hV : Short V) {n : Nat} : ∀ (fuel t : Nat) (acc c : Bytes) (ds : List Bytes) (r : BufReader σ),
    GzRun L V c ds r → Aside n t c ds → (c ++ ds.flatten).length + 1 < fuel →
    ∃ r' b c' ds', readLoop fuel (some (t : Int)) acc r = (.ok (acc ++ b), r') ∧ GzRun L V c' ds' r' ∧ c ++ ds.flatten = b ++ (c' ++ ds'.flatten) ∧
      NoRun n (c' :: ds') ∧ (c ≠ [] → 0 < t → b ≠ []) := by
  intro fuel
  induction fuel with
  | zero => intros; omega
  | succ fuel ih =>
    intro t acc c ds r hr ha hf
    unfold readLoop
    by_cases ht : t = 0
    · subst ht
      exact ⟨r, [], c, ds, by simp [wantsMore], hr, rfl, ha.done, by omega⟩
    · have hc : wantsMore (some (t : Int)) = true := by simp [wantsMore]; omega
      rw [if_pos hc]
      obtain ⟨r1, c1, ds1, h1, h2, h3, h4⟩ := run_fill L hV hr
      have ha1 : Aside n t c1 ds1 := by
        rcases h3 with ⟨rfl, rfl⟩ | ⟨rfl, rfl⟩
        · exact ha
        · exact ha.next
      have hcat : c ++ ds.flatten = c1 ++ ds1.flatten := by
        rcases h3 with ⟨rfl, rfl⟩ | ⟨rfl, rfl⟩
        · rfl
        · simp
      rw [h1]
      simp only
      rcases Bool.eq_false_or_eq_true r1.noBuff with hnb | hnb
      · have he : r1.empty.1 = true := by rw [empty_fst, hnb]
        simp only [he, if_true]
        have hc1 : c1 = [] := by
          obtain ⟨srem, hs, h2⟩ := h2
          rcases h4 with h4 | h4 | h4
          · rw [hnb] at h4; cases h4
          · exact h4.1
          · rcases run_next L h2 hnb with ⟨hu, _⟩ | ⟨_, h5, _⟩
            · exact absurd hu h4
            · exact h5
        have hcc : c = [] := by
          rcases h3 with ⟨rfl, rfl⟩ | ⟨rfl, rfl⟩
          · exact hc1
          · rfl
        obtain ⟨srem, hs, h2⟩ := h2
        rcases run_next L h2 hnb with ⟨hu, he2⟩ | ⟨_, -, d, ds', hd, -, h5, -, -, -, hst⟩
        · have hend : c1 = [] ∧ ds1 = [] := by
            rcases h4 with h4 | h4 | h4
            · rw [hnb] at h4; cases h4
            · exact h4
            · exact absurd hu h4
          refine ⟨r1.empty.2, [], c1, ds1, by rw [List.append_nil], by rw [he2]; exact ⟨srem, hs, h2⟩, hcat, ?_, fun h => absurd hcc h⟩
          rw [hend.2]
          exact ⟨fun i hi => absurd hi (by simp), trivial⟩
        · refine ⟨r1.empty.2, [], d, ds', by rw [List.append_nil], ⟨srem, by rw [hst]; exact hs, h5⟩, ?_, ?_, fun h => absurd hcc h⟩
          · rw [hcat, hc1, hd]; simp
          · rw [hd] at ha1; exact ha1.2
      · rw [empty_of_noBuff_false hnb]
        simp only [Bool.false_eq_true, if_false]
        generalize hb : r1.buff.getD [] = b
        have hbne : b ≠ [] := by
          intro h0
          have := noBuff_iff.2 (hb.trans h0)
          simp [this] at hnb
        have hbl : 0 < b.length := List.length_pos_iff.2 hbne
        obtain ⟨q1, q2, q3⟩ := run_take h2 (min t b.length) (by rw [hb]; omega)
        rw [hb] at q1 q2
        have hak : askLen (some (t : Int)) b.length = t := by
          have : ¬ ((t : Int) < 0) := by omega
          simp [askLen, this]
        have hd : b.drop t = b.drop (min t b.length) := by
          by_cases hm : t ≤ b.length
          · rw [Nat.min_eq_left hm]
          · rw [Nat.min_eq_right (by omega), List.drop_of_length_le (by omega), List.drop_length]
        have htk : b.take t = c1.take (min t b.length) := by
          rw [q2, ← List.take_take, List.take_length]
        have hl : (t : Int) - len (c1.take (min t b.length)) = ((t - min t b.length : Nat) : Int) := by
          simp only [len, List.length_take]; omega
        simp only [buffRead, hb, hak, hd, htk, Option.map_some]
        rw [hl]
        have hlen := congrArg List.length hcat
        simp only [List.length_append] at hlen hf
        obtain ⟨r', b', c', ds', g1, g2, g3, g4, g5⟩ := ih (t - min t b.length) (acc ++ c1.take (min t b.length)) _ _ _ q1 (ha1.take q3 (by omega))
          (by simp only [List.length_drop, List.length_append]; omega)
        refine ⟨r', c1.take (min t b.length) ++ b', c', ds', ?_, g2, ?_, g4, fun _ _ h => ?_⟩
        · rw [g1, List.append_assoc]
        · rw [hcat, List.append_assoc, ← g3, ← List.append_assoc, List.take_append_drop]
        · have := congrArg List.length h
          simp only [List.length_append, List.length_take, List.length_nil] at this
          omega

/-- A block of `n` bytes: it is empty only at the end. -/
theorem run_read (L : LawfulGzip IsMember) (hV : Short V) {n : Nat} (hn : 0 < n) {c : Bytes} {ds : List Bytes} {r : BufReader σ} (h : GzRun L V c ds r) (hN : NoRun n (c :: ds)) :
    ∃ r' b c' ds', r.read (some (n : Int)) = (.ok b, r') ∧ GzRun L V c' ds' r' ∧ c ++ ds.flatten = b ++ (c' ++ ds'.flatten) ∧ NoRun n (c' :: ds') ∧ (b = [] → c ++ ds.flatten = []) := by
  have hb : (c ++ ds.flatten).length ≤ r.bound := by
    obtain ⟨srem, hs, h⟩ := h
    exact (gzAll_weakFill L hV).bound ⟨srem, hs, h.forget⟩
  obtain ⟨r', b, c', ds', h1, h2, h3, h4, h5⟩ := run_readLoop L hV (r.bound + 2) n [] c ds r h (Aside.start hN) (by omega)
  refine ⟨r', b, c', ds', by simpa [BufReader.read] using h1, h2, h3, h4, fun hb => ?_⟩
  have hc : c = [] := Classical.byContradiction fun hc => h5 hc hn hb
  cases ds with
  | nil => rw [hc]; rfl
  | cons d ds =>
    have := hN.1 0 (by simp)
    rw [hc] at this
    simp at this

/-- Reading everything in blocks of `n` bytes. -/
theorem run_readBlocks (L : LawfulGzip IsMember) (hV : Short V) {n : Nat} (hn : 0 < n) : ∀ (fuel : Nat) {c : Bytes} {ds : List Bytes} {r : BufReader σ}, GzRun L V c ds r → NoRun n (c :: ds) →
    (c ++ ds.flatten).length < fuel → ∃ bufs r', readBlocks (n : Int) fuel r = (bufs, .ok (), r') ∧ bufs.flatten = c ++ ds.flatten
  | 0, _, _, _, _, _, h => by omega
  | fuel + 1, c, ds, r, h, hN, hf => by
    obtain ⟨r1, b, c1, ds1, h1, h2, h3, h4, h5⟩ := run_read L hV hn h hN
    have h1' : PyStream.read r (some (n : Int)) = (.ok b, r1) := h1
    unfold readBlocks
    rw [h1']
    dsimp only
    split
    · rename_i he
      have he : b = [] := by simpa using he
      exact ⟨[], r1, rfl, by rw [h5 he]; rfl⟩
    · rename_i he
      have hj : 0 < b.length := List.length_pos_iff.2 (by simpa using he)
      have hl := congrArg List.length h3
      simp only [List.length_append] at hl hf
      obtain ⟨bufs, r', m1, m2⟩ := run_readBlocks L hV hn fuel h2 h4 (by simp only [List.length_append]; omega)
      rw [m1]
      exact ⟨b :: bufs, r', rfl, by rw [List.flatten_cons, m2, h3]⟩

end BufReader
end Warcio
