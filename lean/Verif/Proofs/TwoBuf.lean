import Verif.Proofs.History

/-! # When a line lies in at most two buffers -/

namespace Warcio

set_option linter.unusedSectionVars false

variable {σ : Type} [PyStream σ] {V : σ → Bytes → Prop}

/-- The stream's reads are full: as much as asked for, if there is as much. -/
def FullRead (V : σ → Bytes → Prop) : Prop :=
  ∀ {s rem}, V s rem → ∀ n : Nat, 0 < n → ∃ s', PyStream.read s (some (n : Int)) = (.ok (rem.take n), s') ∧
    V s' (rem.drop n)

theorem ExactRead.full (h : ExactRead V) : FullRead V := fun hs n _ => h.read_some hs n

/-- A file whose reads are full. -/
def FileObj.FullView (f : FileObj) (rem : Bytes) : Prop := f.rest = rem ∧ f.caps = []

theorem FileObj.fullView_read {f : FileObj} {rem : Bytes} (hV : FileObj.FullView f rem) (n : Nat) (hn : 0 < n) :
    ∃ s', PyStream.read f (some (n : Int)) = (.ok (rem.take n), s') ∧ FileObj.FullView s' (rem.drop n) ∧
      PyStream.tell s' = PyStream.tell f + len (rem.take n) := by
  obtain ⟨hr, hc⟩ := hV
  subst hr
  have hn' : ¬ ((n : Int) < 0) := by omega
  have hn0 : ¬ ((n : Int) = 0) := by omega
  refine ⟨{ f with pos := f.pos + (f.rest.take n).length }, ?_, ⟨?_, hc⟩, ?_⟩
  · simp only [PyStream.read, FileObj.read, hn', hn0, if_false, hc, Int.toNat_natCast]
  · exact FileObj.rest_advance f n
  · simp [PyStream.tell, len]

theorem FileObj.fullRead : FullRead FileObj.FullView := by
  intro f rem hV n hn
  obtain ⟨s', h1, h2, _⟩ := FileObj.fullView_read hV n hn
  exact ⟨s', h1, h2⟩

theorem FileObj.fullView_shortRead : ShortRead FileObj.FullView where
  read := by
    intro f rem hV n hn
    obtain ⟨s', h1, h2, h3⟩ := FileObj.fullView_read hV n hn
    refine ⟨rem.take n, rem.drop n, s', (List.take_append_drop n rem).symm, by simp; omega, ?_, h1, h2, h3⟩
    intro h
    cases rem with
    | nil => rfl
    | cons x xs => cases n with
      | zero => omega
      | succ n => simp at h
  bound := by
    intro f rem hV; rw [← hV.1]; exact Nat.le_refl _

theorem takeLine_take {rem : Bytes} {n : Nat} (h : (takeLine rem).length ≤ n) :
    takeLine (rem.take n) = takeLine rem := by
  obtain ⟨t, ht⟩ : ∃ t, rem = takeLine rem ++ t := ⟨_, (takeLine_append_dropLine rem).symm⟩
  by_cases hnl : (10 : UInt8) ∈ rem
  · have hm := mem_nl_takeLine.2 hnl
    have : rem.take n = takeLine rem ++ t.take (n - (takeLine rem).length) := by
      calc rem.take n = (takeLine rem ++ t).take n := by rw [← ht]
        _ = _ := by rw [List.take_append, List.take_of_length_le h]
    rw [this, takeLine_append, if_pos hm]
    calc takeLine (takeLine rem) = takeLine (takeLine rem ++ t) := by rw [takeLine_append, if_pos hm]
      _ = takeLine rem := by rw [← ht]
  · rw [takeLine_of_no_nl hnl] at h ⊢
    rw [List.take_of_length_le h, takeLine_of_no_nl hnl]

namespace BufReader

variable [Zlib] {Q : Nat → Prop}

theorem plain_fill_full (hF : FullRead V) {r : BufReader σ} {rem : Bytes} (h : Plain V Q r rem)
    (hb : r.buff.getD [] = []) :
    ∃ r', r.fillbuff = (.ok (), r') ∧ r'.buff.getD [] = rem.take r.blockSize := by
  obtain ⟨srem, hs, hrem⟩ := h.split
  rw [hb, List.nil_append] at hrem
  subst hrem
  have hnb := noBuff_iff.2 hb
  have hrl : ¬ (0 < r.remLength) := by
    rw [remLength_noBuff hnb]; simp [BufReader.unused, h.decomp, len]
  unfold fillbuff
  rw [h.chunk]
  simp only
  unfold baseFill
  rw [empty_noDecomp h.decomp]
  simp only [hnb, Bool.not_true, Bool.false_eq_true, if_false, hrl]
  obtain ⟨s', h1, h2⟩ := hF hs r.blockSize h.block
  have e1 : r.nextData = (.ok (rem.take r.blockSize), { r with stream := s' }) := by
    simp [nextData, h.sd, readStream, h1]
  rw [e1]
  simp only
  obtain ⟨k1, k2, k3, k4, k5, k6⟩ :=
    processRead_plain (r := { r with stream := s' }) h.decomp (rem.take r.blockSize)
  rw [fillLoop_noDecomp k1]
  exact ⟨_, rfl, k6⟩

/-- Plain data read in full blocks: a line that fits a block lies in at most two buffers. -/
theorem plain_twoBuf (hV : Short V) (hF : FullRead V) {r : BufReader σ} {rem : Bytes} (h : Plain V Q r rem)
    (hl : (takeLine rem).length ≤ r.blockSize) : TwoBuf r rem := by
  intro r1 e1
  by_cases hb : r.buff.getD [] = []
  · obtain ⟨r', f1, f2⟩ := plain_fill_full hF h hb
    rw [f1] at e1; cases e1
    left; rw [f2]; exact takeLine_take hl
  · have hnb : r.noBuff = false := by
      cases hnb : r.noBuff with
      | false => rfl
      | true => exact absurd (noBuff_iff.1 hnb) hb
    have : r.fillbuff = (.ok (), r) := by
      unfold fillbuff; rw [h.chunk]; simp only
      unfold baseFill; rw [empty_of_noBuff_false hnb]; simp
    rw [this] at e1; cases e1
    obtain ⟨t, ht⟩ := (plain_fillLaw hV).pre h
    by_cases hnl : (10 : UInt8) ∈ r.buff.getD []
    · left; rw [← ht, takeLine_append, if_pos hnl]
    right
    intro r' e2
    have hW := (plain_fillLaw hV).take h (r.buff.getD []).length (Nat.le_refl _)
    rw [List.drop_length] at hW
    obtain ⟨r'', f1, f2⟩ := plain_fill_full hF hW rfl
    rw [f1] at e2; cases e2
    rw [f2]
    apply takeLine_take
    show _ ≤ r.blockSize
    refine Nat.le_trans ?_ hl
    rw [← ht, List.drop_left, takeLine_append, if_neg hnl]; simp

variable {IsMember : Bytes → Bytes → Prop} {P : Bytes → Nat → Prop}

theorem freshPlain_twoBuf (L : LawfulGzip IsMember) (hV : Short V) (hF : FullRead V) {r : BufReader σ}
    {rem : Bytes} (h : FreshPlain V Q r rem) (hl : (takeLine rem).length ≤ r.blockSize) : TwoBuf r rem := by
  rcases h with h | h
  · intro r1 e1
    left
    have hnb : r.noBuff = true := noBuff_iff.2 h.buff
    have hrl : ¬ (0 < r.remLength) := by
      rw [remLength_noBuff hnb, unused_gz L h.decomp, L.unused_nil]; simp [len]
    obtain ⟨s', h1, h2⟩ := hF h.view r.blockSize h.block
    unfold fillbuff at e1
    rw [h.chunk] at e1
    simp only at e1
    unfold baseFill at e1
    rw [empty_one h.one] at e1
    simp only [hnb, Bool.not_true, Bool.false_eq_true, if_false, hrl] at e1
    by_cases hp : rem.take r.blockSize = []
    · have hrem : rem = [] := by
        cases rem with
        | nil => rfl
        | cons x xs =>
          have := h.block
          cases hbs : r.blockSize with
          | zero => omega
          | succ n => rw [hbs] at hp; simp at hp
      simp [nextData, h.sd, readStream, h1, processRead, hp, fillLoop] at e1
      rw [← e1, hrem]; rfl
    · obtain ⟨hl2, hm⟩ := h.first _ s' h1 hp
      have hpe : (rem.take r.blockSize).isEmpty = false := by
        cases hq : rem.take r.blockSize with
        | nil => exact absurd hq hp
        | cons _ _ => rfl
      simp [nextData, h.sd, readStream, h1, processRead, hpe, decompress, h.decomp, feed, L.codec_eq,
        L.notGzip hl2 hm, h.count, h.dtype, fillLoop] at e1
      rw [← e1]
      exact takeLine_take hl
  · exact plain_twoBuf hV hF h hl

/-- The member is decompressed steadily. -/
def SteadyAt (m : Nat) (z : Bytes) (b : Nat) : Prop := Steady b m z

theorem take_nil_iff {x : Bytes} {n : Nat} (hn : 0 < n) (h : x.take n = []) : x = [] := by
  cases x with
  | nil => rfl
  | cons a t => cases n with
    | zero => omega
    | succ n => simp at h

/-- The loop of `_fillbuff` inside a member that has been started: when it ends the buffer holds all the rest, or at least `m` bytes. -/
theorem gz_fillLoop_steady (L : LawfulGzip IsMember) (hF : FullRead V) {rest : Bytes} {m : Nat} :
    ∀ (fuel : Nat) (data : Bytes) (r : BufReader σ) (srem : Bytes) (hist : List Bytes) (z d o dr : Bytes),
    0 < r.blockSize → r.readAllMembers = false →
    r.decompressor = some { kind := .gzip, hist := hist } →
    (∀ ch ∈ hist, ch ≠ []) → L.Holds z d rest → L.codec.run hist = some o → d = o ++ dr →
    V r.stream srem → hist.flatten ++ srem = z ++ rest → Steady r.blockSize m z → hist ≠ [] → (data = [] → srem = []) →
    (r.buff.getD [] = [] ∨ dr = [] ∨ m ≤ (r.buff.getD []).length) →
    ∀ r', fillLoop fuel data r = (.ok (), r') → r'.buff.getD [] = r.buff.getD [] ++ dr ∨ m ≤ (r'.buff.getD []).length := by
  intro fuel
  induction fuel with
  | zero => intro data r srem hist z d o dr _ _ _ _ _ _ _ _ _ _ _ _ _ r' e; simp [fillLoop] at e
  | succ fuel ih =>
    intro data r srem hist z d o dr hbs hone hd hc hm hrun hdo hs heq hS hhn hdata hinv r' e
    unfold fillLoop at e
    have hun := unused_gz L hd
    have hdone : (o = d) → dr = [] := by
      intro h; rw [hdo] at h
      have := congrArg List.length h; simp at this; exact this
    by_cases hcond : (!data.isEmpty && r.decompressor.isSome && r.unused.isEmpty) = true
    · rw [if_pos hcond, empty_one hone] at e
      simp only at e
      cases hnb : r.noBuff with
      | false =>
        rw [hnb] at e
        simp only [Bool.false_eq_true, if_false, Prod.mk.injEq, true_and] at e
        subst e
        rcases hinv with h | h | h
        · rw [noBuff_iff.2 h] at hnb; cases hnb
        · left; rw [h, List.append_nil]
        · exact .inr h
      | true =>
        rw [hnb] at e
        simp only [if_true] at e
        have hb := noBuff_iff.1 hnb
        obtain ⟨s', h1, h2⟩ := hF hs r.blockSize hbs
        simp only [readStream, h1] at e
        by_cases hpe : srem.take r.blockSize = []
        · have hs0 := take_nil_iff hbs hpe
          have hz : hist.flatten = z ++ rest := by simpa [hs0] using heq
          obtain ⟨o', k1, k2, k3, k4⟩ := hm.feed hc ⟨_, heq⟩
          rw [hrun] at k1; cases k1
          have hdr := hdone (k3 ⟨rest, hz.symm⟩)
          rw [hpe] at e
          cases fuel with
          | zero => simp [fillLoop, processRead] at e
          | succ fuel =>
            simp [fillLoop, processRead] at e
            left
            rw [← e, hb, hdr]; rfl
        · obtain ⟨o2, dr2, e1, e2, e3, e4, e5⟩ := gz_processRead L (r := { r with stream := s' }) (t := srem.drop r.blockSize) hd hc hm hrun hdo hpe
            (by rw [List.take_append_drop]; exact heq)
          rw [e1] at e
          have hkey : o2 = [] ∨ dr2 = [] ∨ m ≤ o2.length := by
            have hfin : z <+: (hist ++ [srem.take r.blockSize]).flatten → dr2 = [] := by
              intro hzp
              obtain ⟨o', k1, k2, k3, k4⟩ := hm.feed e4 ⟨_, e5⟩
              rw [e2] at k1; cases k1
              have := k3 hzp
              rw [hdo, e3] at this
              have := List.append_cancel_left this
              have := congrArg List.length this
              simp only [List.length_append] at this
              exact List.length_eq_zero_iff.1 (by omega)
            by_cases hsl : srem.length < r.blockSize
            · right; left
              apply hfin
              simp only [List.flatten_append, List.flatten_cons, List.flatten_nil, List.append_nil]
              rw [List.take_of_length_le (by omega)]; exact ⟨rest, heq.symm⟩
            · rcases List.append_eq_append_iff.1 e5 with ⟨a, ha, _⟩ | ⟨a, ha, _⟩
              · have hout : L.codec.out hist (srem.take r.blockSize) = some o2 := by
                  rw [Codec.run_snoc, hrun] at e2
                  simp only at e2
                  cases ho : L.codec.out hist (srem.take r.blockSize) with
                  | none => rw [ho] at e2; simp at e2
                  | some o3 =>
                    rw [ho] at e2
                    simp only [Option.some.injEq] at e2
                    exact congrArg some (List.append_cancel_left e2)
                have := hS L.codec L.codec_eq hist (srem.take r.blockSize) o2 hhn hc (by simp; omega)
                  ⟨a, by rw [ha]; simp⟩ hout
                exact this.imp id .inr
              · exact .inr (.inl (hfin ⟨a, ha.symm⟩))
          have := ih (srem.take r.blockSize) { r with stream := s', decompressor := some { kind := .gzip, hist := hist ++ [srem.take r.blockSize] }, numRead := r.numRead + o2.length, numBlockRead := r.numBlockRead + o2.length, buff := some o2 } (srem.drop r.blockSize)
            (hist ++ [srem.take r.blockSize]) z d (o ++ o2) dr2 hbs hone rfl e4 hm e2
            (by rw [hdo, e3, List.append_assoc]) h2 e5 hS (by simp) (fun h => absurd h hpe) hkey r' e
          rw [hb, List.nil_append, e3]
          exact this
    · rw [if_neg hcond] at e
      simp only [Prod.mk.injEq, true_and] at e
      subst e
      rcases hinv with h | h | h
      · left
        have hwhy : data = [] ∨ L.codec.unused hist ≠ [] := by
          by_cases hde : data = []
          · exact Or.inl hde
          · right
            intro h0; apply hcond
            rw [hun, h0, hd]
            cases data with
            | nil => exact absurd rfl hde
            | cons _ _ => rfl
        have : dr = [] := by
          apply hdone
          rcases hwhy with hde | hu
          · have hs0 := hdata hde
            have hz : hist.flatten = z ++ rest := by simpa [hs0] using heq
            obtain ⟨o', h1, h2, h3, h4⟩ := hm.feed hc ⟨_, heq⟩
            rw [hrun] at h1; cases h1
            exact h3 ⟨rest, hz.symm⟩
          · exact L.done_of_unused hm hc hrun heq hu
        rw [this, List.append_nil]
      · left; rw [h, List.append_nil]
      · exact .inr h

/-- With full reads, a fill inside a member that has been started and is decompressed steadily
delivers all the rest of it, or at least `m` bytes. -/
theorem gz_fill_steady (L : LawfulGzip IsMember) (hV : Short V) (hF : FullRead V) {rest : Bytes} {m : Nat}
    {r : BufReader σ} {rem : Bytes} (h : Gz L V (SteadyAt m) rest r rem) (hb : r.buff.getD [] = [])
    (hsd : r.startingData.getD [] = []) (hh : r.decompressor ≠ some { kind := .gzip, hist := [] }) :
    ∀ r', r.fillbuff = (.ok (), r') → r'.buff.getD [] = rem ∨ m ≤ (r'.buff.getD []).length := by
  intro r' e
  obtain ⟨r'', f1, f2, f3, _⟩ := gz_fill L hV h
  rw [e] at f1; cases f1
  by_cases hrem0 : rem = []
  · left
    have := (gz_fillLaw L hV (SteadyAt m) rest).pre f2
    rw [hrem0] at this ⊢
    exact List.prefix_nil.1 this
  obtain ⟨hist, z, d, o, dr, srem, hd, hc, hm, hrun, hdo, hs, heq, hrem, hfr, hP, hfb⟩ := h.split
  rw [hb, List.nil_append] at hrem
  rw [hsd, List.nil_append] at heq
  have hhn : hist ≠ [] := fun h0 => hh (by rw [hd, h0])
  have hnb := noBuff_iff.2 hb
  have hnd : o ≠ d := by
    intro h0
    apply hrem0
    rw [hrem]
    rw [hdo] at h0
    have := congrArg List.length h0; simp at this; exact this
  have hun : L.codec.unused hist = [] := by
    cases hu : L.codec.unused hist with
    | nil => rfl
    | cons x xs => exact absurd (L.done_of_unused hm hc hrun heq (by rw [hu]; simp)) hnd
  have hrl : ¬ (0 < r.remLength) := by
    rw [remLength_noBuff hnb, unused_gz L hd, hun]; simp [len]
  obtain ⟨s', h1, h2⟩ := hF hs r.blockSize h.block
  unfold fillbuff at e
  rw [h.chunk] at e
  simp only at e
  unfold baseFill at e
  rw [empty_one h.one] at e
  have e1 : r.nextData = (.ok (srem.take r.blockSize), { r with stream := s' }) := by
    simp [nextData, hsd, readStream, h1]
  simp only [hnb, Bool.not_true, Bool.false_eq_true, if_false, hrl, e1] at e
  have e2 : fillLoop (PyStream.bound s' + 2 + 1) [0] r = (.ok (), r') := by
    unfold fillLoop
    have hcond : (!([0] : Bytes).isEmpty && r.decompressor.isSome && r.unused.isEmpty) = true := by
      rw [unused_gz L hd, hun, hd]; rfl
    rw [if_pos hcond, empty_one h.one]
    simp only [hnb, if_true, readStream, h1]
    exact e
  have := gz_fillLoop_steady L hF _ [0] r srem hist z d o dr h.block h.one hd hc hm hrun hdo hs heq hP hhn (by simp) (.inl hb) r' e2
  rw [hb, List.nil_append, ← hrem] at this
  exact this

/-- With full reads, a line of at most `m` bytes in a member that is decompressed steadily lies in at most two buffers. -/
theorem gz_twoBuf (L : LawfulGzip IsMember) (hV : Short V) (hF : FullRead V) {rest : Bytes} {m : Nat}
    {r : BufReader σ} {rem : Bytes} (h : Gz L V (SteadyAt m) rest r rem) (hl : (takeLine rem).length ≤ m) : TwoBuf r rem := by
  intro r1 e1
  obtain ⟨r1', f1, f2, f3, _⟩ := gz_fill L hV h
  rw [e1] at f1; cases f1
  by_cases hrem : rem = []
  · left
    have := (gz_fillLaw L hV (SteadyAt m) rest).pre f2
    rw [hrem] at this ⊢
    rw [List.prefix_nil.1 this]
  · obtain ⟨t, ht⟩ := (gz_fillLaw L hV (SteadyAt m) rest).pre f2
    by_cases hnl : (10 : UInt8) ∈ r1.buff.getD []
    · left; rw [← ht, takeLine_append, if_pos hnl]
    right
    have hnb := f3 hrem
    have hb : r1.buff.getD [] ≠ [] := by
      intro h0; rw [noBuff_iff.2 h0] at hnb; cases hnb
    obtain ⟨hist, z, d, o, dr, srem, hd, hc, hm, hrun, hdo, hs, heq, hrem', hfr, hP, hfb⟩ := f2.split
    have hhn : hist ≠ [] := fun h0 => hb (hfb h0)
    have hsd : r1.startingData.getD [] = [] := by
      rcases hfr with h0 | h0
      · exact absurd (hfb h0) hb
      · exact h0
    intro r' e2
    have hW := (gz_fillLaw L hV (SteadyAt m) rest).take f2 (r1.buff.getD []).length (Nat.le_refl _)
    rw [List.drop_length] at hW
    rcases gz_fill_steady L hV hF hW rfl hsd (by show r1.decompressor ≠ _; rw [hd]; intro h0; cases h0; exact hhn rfl) r' e2 with h0 | h0
    · rw [h0]
    · obtain ⟨r'', g1, g2, _⟩ := gz_fill L hV hW
      rw [e2] at g1; cases g1
      obtain ⟨t', ht'⟩ := (gz_fillLaw L hV (SteadyAt m) rest).pre g2
      have hlen : (takeLine (rem.drop (r1.buff.getD []).length)).length ≤ (r'.buff.getD []).length := by
        refine Nat.le_trans ?_ (Nat.le_trans hl h0)
        rw [← ht, List.drop_left, takeLine_append, if_neg hnl]; simp
      have := takeLine_take hlen
      rw [← this, ← ht', List.take_left]

end BufReader
end Warcio
