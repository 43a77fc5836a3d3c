import Verif.Proofs.ReadAll

/-! # `read_all_members` when the whole file fits one block and no member is empty -/

namespace Warcio
namespace BufReader

set_option linter.unusedSectionVars false

variable {σ : Type} [Zlib] [PyStream σ] {V : σ → Bytes → Prop} {IsMember : Bytes → Bytes → Prop}

/-- The members still to come, `ms`, are all in `startingData` or all in the stream; the
decompressor is fresh, or has been fed everything. -/
structure OneBlock (L : LawfulGzip IsMember) (V : σ → Bytes → Prop) (r : BufReader σ) (rem : Bytes) : Prop where
  dtype : r.decompType = some .gzip
  chunk : r.chunk = none
  block : 0 < r.blockSize
  all : r.readAllMembers = true
  split : ∃ (hist : List Bytes) (srem : Bytes) (ms : List (Bytes × Bytes)),
    r.decompressor = some { kind := .gzip, hist := hist } ∧ V r.stream srem ∧
    (∀ m ∈ ms, IsMember m.1 m.2 ∧ m.2 ≠ []) ∧
    rem = r.buff.getD [] ++ (ms.map Prod.snd).flatten ∧
    ((hist = [] ∧ r.noBuff = true ∧ r.startingData.getD [] ++ srem = (ms.map Prod.fst).flatten ∧
        srem.length ≤ r.blockSize ∧ (r.startingData.getD [] = [] ∨ srem = []) ∧ ms ≠ []) ∨
     (∃ z d, IsMember z d ∧ hist = [z ++ (ms.map Prod.fst).flatten] ∧ L.codec.unused hist = (ms.map Prod.fst).flatten ∧ srem = [] ∧
        r.startingData.getD [] = []))

theorem flatten_fst_nil (L : LawfulGzip IsMember) {ms : List (Bytes × Bytes)}
    (h : ∀ m ∈ ms, IsMember m.1 m.2 ∧ m.2 ≠ []) (h0 : (ms.map Prod.fst).flatten = []) : ms = [] := by
  cases ms with
  | nil => rfl
  | cons m ms =>
    obtain ⟨t, ht⟩ := L.magic (h m (by simp)).1
    simp [← ht] at h0

/-- `empty` keeps the view; after it an empty buffer leaves nothing unused. -/
theorem oneBlock_empty (L : LawfulGzip IsMember) {r : BufReader σ} {rem : Bytes} (h : OneBlock L V r rem) :
    OneBlock L V r.empty.2 rem ∧ (r.noBuff = true → r.empty.2.unused = [] ∧ r.empty.2.noBuff = true) := by
  obtain ⟨hist, srem, ms, hd, hs, hms, hrem, hst⟩ := h.split
  rcases Bool.eq_false_or_eq_true r.noBuff with hnb | hnb
  · have hun := unused_gz L hd
    have hdu : Decompressor.unused { kind := .gzip, hist := hist } = r.unused := by simp [BufReader.unused, hd]
    by_cases hu : r.unused = []
    · have he : r.empty = (true, r) := by simp [BufReader.empty, hnb, h.all, readNextMember, hd, hdu, hu]
      rw [he]
      exact ⟨h, fun _ => ⟨hu, hnb⟩⟩
    · rcases hst with ⟨h0, _⟩ | ⟨z, d, hm, hh, hhu, h1, h2⟩
      · exfalso; apply hu; rw [hun, h0, L.unused_nil]
      · have he : r.empty = (true, { r with startingData := some r.unused, numBlockRead := 0, decompType := some .gzip, decompressor := some { kind := .gzip } }) := by
          simp only [BufReader.empty, hnb, h.all, if_true, readNextMember, hd, hdu, hu, if_false, initDecomp, h.dtype]
        rw [he]
        rw [hun, hhu] at hu
        refine ⟨⟨rfl, h.chunk, h.block, h.all, [], srem, ms, rfl, hs, hms, hrem, Or.inl ⟨rfl, hnb, ?_, by simp [h1], Or.inr h1, ?_⟩⟩,
          fun _ => ⟨?_, hnb⟩⟩
        · simp [h1, hun, hhu]
        · rintro rfl; simp at hu
        · simp [BufReader.unused, Decompressor.unused, L.codec_eq, L.unused_nil]
  · rw [empty_of_noBuff_false hnb]
    exact ⟨h, fun h => by simp [hnb] at h⟩

theorem oneBlock_fill (L : LawfulGzip IsMember) (hV : Short V) (hF : FullRead V) {r : BufReader σ} {rem : Bytes}
    (h : OneBlock L V r rem) : ∃ r', r.fillbuff = (.ok (), r') ∧ OneBlock L V r' rem ∧ (rem ≠ [] → r'.noBuff = false) := by
  have hfb : r.fillbuff = r.baseFill := by simp [fillbuff, h.chunk]
  rw [hfb]
  unfold baseFill
  rcases Bool.eq_false_or_eq_true r.noBuff with hnb | hnb
  · obtain ⟨h1, h2⟩ := oneBlock_empty L h
    obtain ⟨hu, hnb1⟩ := h2 hnb
    have he : r.empty.1 = true := by rw [empty_fst, hnb]
    generalize r.empty = x at he h1 hu hnb1
    obtain ⟨b, r1⟩ := x
    simp only at he h1 hu hnb1
    subst he
    have hrl : ¬ (0 < r1.remLength) := by rw [remLength_noBuff hnb1, hu]; simp [len]
    simp only [Bool.not_true, Bool.false_eq_true, if_false, hrl]
    obtain ⟨hist, srem, ms, hd, hs, hms, hrem, hst⟩ := h1.split
    have hun := unused_gz L hd
    rw [noBuff_iff.1 hnb1, List.nil_append] at hrem
    rcases hst with ⟨h0, _, hcat, hlen, hone, hmsne⟩ | ⟨z, d, hm, hh, hhu, hsr, hsd⟩
    · -- everything is fed at once
      have hnd : ∃ s' sd', r1.nextData = (.ok (ms.map Prod.fst).flatten, { r1 with stream := s', startingData := sd' }) ∧
          V s' [] ∧ sd'.getD [] = [] := by
        unfold nextData
        cases hsd : r1.startingData.getD [] with
        | cons x xs =>
          rcases hone with h' | h'
          · rw [hsd] at h'; cases h'
          · refine ⟨r1.stream, none, ?_, by rw [← h']; exact hs, rfl⟩
            rw [hsd, h', List.append_nil] at hcat
            rw [← hcat]; simp
        | nil =>
          obtain ⟨s', g1, g2⟩ := hF hs r1.blockSize h1.block
          rw [hsd, List.nil_append] at hcat
          rw [List.take_of_length_le hlen] at g1
          rw [List.drop_of_length_le hlen] at g2
          exact ⟨s', r1.startingData, by simp [readStream, g1, hcat], g2, hsd⟩
      obtain ⟨s', sd', hnd1, hnd2, hnd3⟩ := hnd
      rw [hnd1]
      simp only
      match ms, hmsne with
      | m :: ms, _ =>
        obtain ⟨hm, hmne⟩ := hms m (by simp)
        have hz : m.1 ≠ [] := by
          obtain ⟨t, ht⟩ := L.magic hm; rw [← ht]; simp
        have hzz : m.1 ++ (ms.map Prod.fst).flatten ≠ [] := by simp [hz]
        subst h0
        obtain ⟨o2, dr2, e1, e2, e3, e4, e5⟩ := gz_processRead L (r := { r1 with stream := s', startingData := sd' })
          (z := m.1) (d := m.2) (rest := (ms.map Prod.fst).flatten) (t := []) (data := m.1 ++ (ms.map Prod.fst).flatten)
          (o := []) (dr := m.2) hd (by simp) (L.holds hm _) rfl rfl hzz (by simp)
        obtain ⟨o', g1, g2, g3, g4⟩ := L.member hm e4 (L.cmp e5)
        have ho : o2 = m.2 := by
          have hod := g3 ⟨(ms.map Prod.fst).flatten, by simp⟩
          rw [g1] at e2; simp only [Option.some.injEq, List.nil_append] at e2; rw [← e2, hod]
        have hdat : ((m :: ms).map Prod.fst).flatten = m.1 ++ (ms.map Prod.fst).flatten := by simp
        rw [hdat, e1]
        have hun2 : L.codec.unused ([] ++ [m.1 ++ (ms.map Prod.fst).flatten]) = (ms.map Prod.fst).flatten := by
          rw [g4]; simp
        let r2 : BufReader σ := { r1 with stream := s', startingData := sd', decompressor := some { kind := .gzip, hist := [] ++ [m.1 ++ (ms.map Prod.fst).flatten] }, numRead := r1.numRead + o2.length, numBlockRead := r1.numBlockRead + o2.length, buff := some o2 }
        have hnb2 : r2.noBuff = false := by
          show o2.isEmpty = false
          rw [ho]; cases hmm : m.2 with
          | nil => exact absurd hmm hmne
          | cons _ _ => rfl
        have hloop : ∀ fuel, fillLoop (fuel + 1) (m.1 ++ (ms.map Prod.fst).flatten) r2 = (.ok (), r2) := by
          intro fuel
          unfold fillLoop
          split
          · rw [empty_of_noBuff_false hnb2]; simp
          · rfl
        refine ⟨r2, hloop _, ⟨h1.dtype, h1.chunk, h1.block, h1.all, _, [], ms, rfl, hnd2, fun x hx => hms x (by simp [hx]), ?_,
          Or.inr ⟨m.1, m.2, hm, rfl, hun2, rfl, hnd3⟩⟩, fun _ => hnb2⟩
        rw [hrem]
        show _ = o2 ++ _
        rw [ho]; simp
    · -- the end
      rw [hun, hhu] at hu
      have hms0 := flatten_fst_nil L hms hu
      subst hms0
      have hrem0 : rem = [] := by simpa using hrem
      obtain ⟨p, s', sd', srem', e1, e2, e3, e4, e6⟩ := nextData_spec hV hs h1.block
      have hp : p = [] ∧ srem' = [] := by
        rw [hsd, hsr, e6] at e3
        simpa using e3
      rw [e1, hp.1]
      simp only
      refine ⟨{ r1 with stream := s', startingData := sd', buff := none }, by simp [fillLoop, processRead], ?_, fun h => absurd hrem0 h⟩
      refine ⟨h1.dtype, h1.chunk, h1.block, h1.all, hist, srem', [], hd, e2, by simp, by simp [hrem0],
        Or.inr ⟨z, d, hm, hh, hhu, hp.2, e6⟩⟩
  · rw [empty_of_noBuff_false hnb]
    exact ⟨r, by simp, h, fun _ => hnb⟩

theorem oneBlock_fillLaw (L : LawfulGzip IsMember) (hV : Short V) (hF : FullRead V) : FillLaw (OneBlock L V (σ := σ)) where
  pre := by
    intro r rem h
    obtain ⟨hist, srem, ms, hd, hs, hms, hrem, hst⟩ := h.split
    exact ⟨_, hrem.symm⟩
  fill := fun h => oneBlock_fill L hV hF h
  empty := fun h => (oneBlock_empty L h).1
  take := by
    intro r rem h k hk
    obtain ⟨hist, srem, ms, hd, hs, hms, hrem, hst⟩ := h.split
    refine ⟨h.dtype, h.chunk, h.block, h.all, hist, srem, ms, hd, hs, hms, ?_, ?_⟩
    · rw [hrem, List.drop_append_of_le_length hk]; rfl
    · rcases hst with ⟨h0, hnb, h2⟩ | h'
      · left
        refine ⟨h0, ?_, h2⟩
        simp [BufReader.noBuff, noBuff_iff.1 hnb]
      · exact Or.inr h'
  bound := by
    intro r rem h
    obtain ⟨hist, srem, ms, hd, hs, hms, hrem, hst⟩ := h.split
    have hb := hV.bound hs
    have h1 : ∀ ms : List (Bytes × Bytes), (∀ m ∈ ms, IsMember m.1 m.2 ∧ m.2 ≠ []) →
        (ms.map Prod.snd).flatten.length ≤ Zlib.ratio * (ms.map Prod.fst).flatten.length := by
      intro ms
      induction ms with
      | nil => simp
      | cons m ms ih =>
        intro h
        have := ih (fun x hx => h x (by simp [hx]))
        have h2 := L.ratio (h m (by simp)).1
        simp only [List.map_cons, List.flatten_cons, List.length_append, Nat.mul_add]
        omega
    have h2 := h1 ms hms
    have h3 : (ms.map Prod.fst).flatten.length ≤ hist.flatten.length + (r.startingData.getD []).length + PyStream.bound r.stream := by
      rcases hst with ⟨h0, _, hcat, _⟩ | ⟨z, d, hm, hh, _⟩
      · rw [← hcat, List.length_append]; omega
      · rw [hh]; simp only [List.flatten_cons, List.flatten_nil, List.append_nil, List.length_append]; omega
    unfold BufReader.bound
    rw [hrem, hd]
    simp only [List.length_append]
    have h6 : Zlib.ratio * (ms.map Prod.fst).flatten.length ≤
        (Zlib.ratio + 1) * (hist.flatten.length + (r.startingData.getD []).length + PyStream.bound r.stream) := by
      apply Nat.mul_le_mul <;> omega
    omega

end BufReader
end Warcio
