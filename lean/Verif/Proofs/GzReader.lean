import Verif.Spec.Codec
import Verif.Proofs.BufReader

/-! # Views of a buffered reader: plain data, one gzip member, and undecided -/

namespace Warcio

theorem Codec.runFrom_append (c : Codec) (pre a b : List Bytes) :
    c.runFrom pre (a ++ b) =
      match c.runFrom pre a with
      | none => none
      | some o => match c.runFrom (pre ++ a) b with
        | none => none
        | some o' => some (o ++ o') := by
  induction a generalizing pre with
  | nil =>
    simp only [List.nil_append, Codec.runFrom, List.append_nil]
    cases c.runFrom pre b <;> simp
  | cons ch t ih =>
    simp only [List.cons_append, Codec.runFrom]
    cases c.out pre ch with
    | none => rfl
    | some o =>
      simp only [ih, List.append_assoc, List.singleton_append]
      cases c.runFrom (pre ++ [ch]) t with
      | none => rfl
      | some o1 =>
        simp only
        cases c.runFrom (pre ++ ch :: t) b <;> simp

theorem Codec.run_snoc (c : Codec) (hist : List Bytes) (ch : Bytes) :
    c.run (hist ++ [ch]) =
      match c.run hist with
      | none => none
      | some o => match c.out hist ch with
        | none => none
        | some o' => some (o ++ o') := by
  unfold Codec.run
  rw [Codec.runFrom_append]
  cases c.runFrom [] hist with
  | none => rfl
  | some o =>
    simp only [List.nil_append, Codec.runFrom]
    cases c.out hist ch <;> simp

namespace BufReader

set_option linter.unusedSectionVars false

variable {σ : Type} [Zlib] [PyStream σ] {V : σ → Bytes → Prop} {Q : Nat → Prop}

/-- Reader over undecompressed data: buffer, then the stream. -/
structure Plain (V : σ → Bytes → Prop) (Q : Nat → Prop) (r : BufReader σ) (rem : Bytes) : Prop where
  decomp : r.decompressor = none
  chunk : r.chunk = none
  block : 0 < r.blockSize
  cond : Q r.blockSize
  sd : r.startingData.getD [] = []
  split : ∃ srem, V r.stream srem ∧ rem = r.buff.getD [] ++ srem

omit [PyStream σ] in
theorem processRead_plain {r : BufReader σ} (h : r.decompressor = none) (data : Bytes) :
    (r.processRead data).decompressor = none ∧ (r.processRead data).chunk = r.chunk ∧
    (r.processRead data).blockSize = r.blockSize ∧ (r.processRead data).stream = r.stream ∧
    (r.processRead data).startingData = r.startingData ∧
    (r.processRead data).buff.getD [] = data := by
  unfold processRead
  by_cases hd : data.isEmpty = true
  · simp [hd, h]; exact (List.isEmpty_iff.1 hd)
  · simp [hd, decompress, h]

theorem fillLoop_noDecomp {r : BufReader σ} (h : r.decompressor = none) (fuel : Nat) (data : Bytes) :
    fillLoop (fuel + 1) data r = (.ok (), r) := by
  simp [fillLoop, h]

omit [PyStream σ] in
theorem empty_noDecomp {r : BufReader σ} (h : r.decompressor = none) : r.empty = (r.noBuff, r) := by
  unfold BufReader.empty readNextMember
  simp only [h]
  cases r.noBuff <;> simp

/-- One raw read, whichever source it comes from. -/
theorem nextData_spec (hV : Short V) {r : BufReader σ} {srem : Bytes} (hs : V r.stream srem)
    (hb : 0 < r.blockSize) :
    ∃ p s' sd' srem', r.nextData = (.ok p, { r with stream := s', startingData := sd' }) ∧
      V s' srem' ∧ p ++ (sd'.getD [] ++ srem') = r.startingData.getD [] ++ srem ∧
      (p = [] → r.startingData.getD [] ++ srem = []) ∧ sd'.getD [] = [] := by
  unfold nextData
  cases hsd : r.startingData.getD [] with
  | cons x xs =>
    refine ⟨x :: xs, r.stream, none, srem, by simp, hs, by simp, by simp, rfl⟩
  | nil =>
    obtain ⟨p, rem', s', hp1, hp2, hp3, hp4, hp5⟩ := hV.read hs r.blockSize hb
    refine ⟨p, s', r.startingData, rem', ?_, hp5, by simp [hsd, hp1], by simpa using hp3, hsd⟩
    simp [readStream, hp4]

omit [PyStream σ] in
theorem remLength_noBuff {r : BufReader σ} (h : r.noBuff = true) : r.remLength = len r.unused := by
  have hbuf := noBuff_iff.1 h
  unfold remLength
  cases hbb : r.buff with
  | none => simp
  | some b => rw [hbb] at hbuf; simp at hbuf; subst hbuf; simp [len]

theorem plain_baseFill (hV : Short V) {r : BufReader σ} {rem : Bytes} (h : Plain V Q r rem) :
    ∃ r', r.baseFill = (.ok (), r') ∧ Plain V Q r' rem ∧ (rem ≠ [] → r'.noBuff = false) := by
  obtain ⟨srem, hs, hrem⟩ := h.split
  unfold baseFill
  rw [empty_noDecomp h.decomp]
  simp only
  cases hb : r.noBuff with
  | false => exact ⟨r, by simp, h, fun _ => hb⟩
  | true =>
    have hbuf := noBuff_iff.1 hb
    have hrl : ¬ (0 < r.remLength) := by
      rw [remLength_noBuff hb]; simp [BufReader.unused, h.decomp, len]
    simp only [Bool.not_true, Bool.false_eq_true, if_false, hrl]
    rw [hbuf, List.nil_append] at hrem
    obtain ⟨p, s', sd', srem', e1, e2, e3, e4, e6⟩ := nextData_spec hV hs h.block
    rw [e1]
    simp only
    obtain ⟨h1, h2, h3, h4, h5, h6⟩ :=
      processRead_plain (r := { r with stream := s', startingData := sd' }) h.decomp p
    rw [fillLoop_noDecomp h1]
    refine ⟨_, rfl, ⟨h1, h2.trans h.chunk, by rw [h3]; exact h.block, by rw [h3]; exact h.cond, by rw [h5]; exact e6, srem', by rw [h4]; exact e2, ?_⟩, ?_⟩
    · rw [h6, hrem]; simpa [h.sd, e6] using e3.symm
    · intro hne
      cases hnb : (processRead { r with stream := s', startingData := sd' } p).noBuff with
      | false => rfl
      | true =>
        rw [noBuff_iff.1 hnb] at h6
        exact absurd (hrem.trans (by simpa [h.sd] using e4 h6.symm)) hne

theorem plain_fill (hV : Short V) {r : BufReader σ} {rem : Bytes} (h : Plain V Q r rem) :
    ∃ r', r.fillbuff = (.ok (), r') ∧ Plain V Q r' rem ∧ (rem ≠ [] → r'.noBuff = false) := by
  unfold fillbuff
  rw [h.chunk]
  exact plain_baseFill hV h

theorem plain_fillLaw (hV : Short V) : FillLaw (Plain V Q (σ := σ)) where
  pre := by
    intro r rem h; obtain ⟨srem, _, hrem⟩ := h.split
    exact ⟨_, hrem.symm⟩
  fill h := plain_fill hV h
  empty := by
    intro r rem h; rw [empty_noDecomp h.decomp]; exact h
  take := by
    intro r rem h k hk
    obtain ⟨srem, hs, hrem⟩ := h.split
    refine ⟨h.decomp, h.chunk, h.block, h.cond, h.sd, srem, hs, ?_⟩
    rw [hrem, List.drop_append_of_le_length hk]; rfl
  bound := by
    intro r rem h
    obtain ⟨srem, hs, hrem⟩ := h.split
    have := hV.bound hs
    simp only [BufReader.bound, h.decomp, hrem, List.length_append]
    have h2 : (r.startingData.getD []).length + PyStream.bound r.stream ≤
        (Zlib.ratio + 1) * (0 + (r.startingData.getD []).length + PyStream.bound r.stream) := by
      rw [Nat.add_mul, Nat.zero_add]; omega
    omega

variable {IsMember : Bytes → Bytes → Prop} {P : Bytes → Nat → Prop}

/-- Raw data `z` that a decompressor turns into `d`, and that `rest` may follow: a member, or the beginning of one if nothing follows. -/
structure _root_.Warcio.LawfulGzip.Holds (L : LawfulGzip IsMember) (z d rest : Bytes) : Prop where
  feed : ∀ {hist : List Bytes}, (∀ ch ∈ hist, ch ≠ []) → hist.flatten <+: z ++ rest →
    ∃ o, L.codec.run hist = some o ∧ o <+: d ∧ (z <+: hist.flatten → o = d) ∧ L.codec.unused hist = hist.flatten.drop z.length
  ratio : d.length ≤ Zlib.ratio * z.length

theorem _root_.Warcio.LawfulGzip.holds (L : LawfulGzip IsMember) {z d : Bytes} (h : IsMember z d) (rest : Bytes) : L.Holds z d rest where
  feed hc hp := by
    obtain ⟨t, heq⟩ := hp
    exact L.member h hc (List.append_eq_append_iff.1 heq |>.elim
      (fun ⟨a, ha, _⟩ => Or.inl ⟨a, ha.symm⟩) (fun ⟨a, ha, _⟩ => Or.inr ⟨a, ha.symm⟩))
  ratio := L.ratio h

/-- Reader inside one gzip member: what is still to come of the member's data is `rem`; the
raw data after the member is `rest`.  `P` is a condition on the size of the member and the
block size. -/
structure Gz (L : LawfulGzip IsMember) (V : σ → Bytes → Prop) (P : Bytes → Nat → Prop) (rest : Bytes) (r : BufReader σ)
    (rem : Bytes) : Prop where
  dtype : r.decompType = some .gzip
  chunk : r.chunk = none
  block : 0 < r.blockSize
  one : r.readAllMembers = false
  split : ∃ hist z d o dr srem, r.decompressor = some { kind := .gzip, hist := hist } ∧
    (∀ ch ∈ hist, ch ≠ []) ∧ L.Holds z d rest ∧ L.codec.run hist = some o ∧ d = o ++ dr ∧
    V r.stream srem ∧ hist.flatten ++ (r.startingData.getD [] ++ srem) = z ++ rest ∧
    rem = r.buff.getD [] ++ dr ∧ (hist = [] ∨ r.startingData.getD [] = []) ∧ P z r.blockSize ∧
    (hist = [] → r.buff.getD [] = [])

theorem Gz.weaken {L : LawfulGzip IsMember} {rest : Bytes} {r : BufReader σ} {rem : Bytes} {P' : Bytes → Nat → Prop}
    (h : Gz L V P rest r rem) (hP : ∀ z b, P z b → P' z b) : Gz L V P' rest r rem := by
  obtain ⟨hist, z, d, o, dr, srem, hd, hc, hm, hrun, hdo, hs, heq, hrem, hfr, hp, hfb⟩ := h.split
  exact ⟨h.dtype, h.chunk, h.block, h.one, hist, z, d, o, dr, srem, hd, hc, hm, hrun, hdo, hs, heq, hrem, hfr,
    hP _ _ hp, hfb⟩

omit [PyStream σ] in
theorem unused_gz (L : LawfulGzip IsMember) {r : BufReader σ} {hist : List Bytes}
    (h : r.decompressor = some { kind := .gzip, hist := hist }) : r.unused = L.codec.unused hist := by
  simp [BufReader.unused, h, Decompressor.unused, L.codec_eq]

/-- The member is finished as soon as something is unused, and its data has been delivered. -/
theorem _root_.Warcio.LawfulGzip.done_of_unused (L : LawfulGzip IsMember) {z d rest : Bytes} {hist : List Bytes}
    {o t : Bytes} (hm : L.Holds z d rest) (hc : ∀ ch ∈ hist, ch ≠ []) (hrun : L.codec.run hist = some o)
    (heq : hist.flatten ++ t = z ++ rest) (hu : L.codec.unused hist ≠ []) : o = d := by
  have hcmp : hist.flatten <+: z ∨ z <+: hist.flatten := List.append_eq_append_iff.1 heq |>.elim
    (fun ⟨a, ha, _⟩ => Or.inl ⟨a, ha.symm⟩) (fun ⟨a, ha, _⟩ => Or.inr ⟨a, ha.symm⟩)
  obtain ⟨o', h1, h2, h3, h4⟩ := hm.feed hc ⟨t, heq⟩
  rw [hrun] at h1; cases h1
  apply h3
  rcases hcmp with ⟨a, ha⟩ | h
  · exfalso; apply hu; rw [h4, ← ha]; simp
  · exact h

theorem _root_.Warcio.LawfulGzip.cmp (_L : LawfulGzip IsMember) {z rest t : Bytes} {hist : List Bytes}
    (heq : hist.flatten ++ t = z ++ rest) : hist.flatten <+: z ∨ z <+: hist.flatten :=
  List.append_eq_append_iff.1 heq |>.elim
    (fun ⟨a, ha, _⟩ => Or.inl ⟨a, ha.symm⟩) (fun ⟨a, ha, _⟩ => Or.inr ⟨a, ha.symm⟩)

omit [PyStream σ] in
theorem feed_gz (L : LawfulGzip IsMember) {r : BufReader σ} {hist : List Bytes}
    (h : r.decompressor = some { kind := .gzip, hist := hist }) (data : Bytes) :
    r.feed data = (L.codec.out hist data,
      { r with decompressor := some { kind := .gzip, hist := hist ++ [data] } }) := by
  simp [feed, h, L.codec_eq]

/-- Feeding one more non-empty chunk that fits the member. -/
theorem gz_processRead (L : LawfulGzip IsMember) {r : BufReader σ} {hist : List Bytes}
    {z d o dr rest t data : Bytes}
    (hd : r.decompressor = some { kind := .gzip, hist := hist }) (hc : ∀ ch ∈ hist, ch ≠ [])
    (hm : L.Holds z d rest) (hrun : L.codec.run hist = some o) (hdo : d = o ++ dr)
    (hne : data ≠ []) (heq : hist.flatten ++ (data ++ t) = z ++ rest) :
    ∃ o2 dr2, r.processRead data =
        { r with decompressor := some { kind := .gzip, hist := hist ++ [data] },
                 numRead := r.numRead + o2.length, numBlockRead := r.numBlockRead + o2.length,
                 buff := some o2 } ∧
      L.codec.run (hist ++ [data]) = some (o ++ o2) ∧ dr = o2 ++ dr2 ∧
      (∀ ch ∈ hist ++ [data], ch ≠ []) ∧ (hist ++ [data]).flatten ++ t = z ++ rest := by
  have hc' : ∀ ch ∈ hist ++ [data], ch ≠ [] := by
    intro ch hch
    rcases List.mem_append.1 hch with h | h
    · exact hc ch h
    · simp at h; subst h; exact hne
  have heq' : (hist ++ [data]).flatten ++ t = z ++ rest := by simpa using heq
  obtain ⟨o', h1, h2, h3, h4⟩ := hm.feed hc' ⟨_, heq'⟩
  have h1' := h1
  rw [Codec.run_snoc, hrun] at h1
  simp only at h1
  cases ho : L.codec.out hist data with
  | none => rw [ho] at h1; simp at h1
  | some o2 =>
    rw [ho] at h1; simp only [Option.some.injEq] at h1
    obtain ⟨dr2, hdr2⟩ := h2
    have hdr : dr = o2 ++ dr2 := by
      rw [hdo, ← h1, List.append_assoc] at hdr2
      exact (List.append_cancel_left hdr2).symm
    refine ⟨o2, dr2, ?_, by rw [h1', ← h1], hdr, hc', heq'⟩
    unfold processRead
    have : data.isEmpty = false := by cases data with
      | nil => exact absurd rfl hne
      | cons _ _ => rfl
    simp only [this, Bool.false_eq_true, if_false, decompress, hd, Option.isSome_some, Bool.not_false,
      Bool.and_true, if_true, feed_gz L hd, ho]

omit [PyStream σ] in
theorem empty_one {r : BufReader σ} (h : r.readAllMembers = false) : r.empty = (r.noBuff, r) := by
  unfold BufReader.empty
  cases r.noBuff <;> simp [h]

/-- At the end of a member: all its data has been delivered, and if raw data follows, some
of it is known to the decompressor as unused. -/
structure GzEnd (L : LawfulGzip IsMember) (V : σ → Bytes → Prop) (P : Bytes → Nat → Prop) (rest : Bytes) (r : BufReader σ) :
    Prop where
  dtype : r.decompType = some .gzip
  chunk : r.chunk = none
  block : 0 < r.blockSize
  one : r.readAllMembers = false
  decomp : ∃ hist, r.decompressor = some { kind := .gzip, hist := hist }
  buff : r.noBuff = true
  sd : r.startingData.getD [] = []
  split : ∃ srem, V r.stream srem ∧ rest = r.unused ++ srem
  fin : r.unused = [] → rest = []
  prev : ∃ n, P n r.blockSize

theorem gzEnd_of (L : LawfulGzip IsMember) {r : BufReader σ} {hist : List Bytes} {z d rest srem : Bytes}
    (hdt : r.decompType = some .gzip) (hch : r.chunk = none) (hbs : 0 < r.blockSize)
    (hone : r.readAllMembers = false) (hd : r.decompressor = some { kind := .gzip, hist := hist })
    (hc : ∀ ch ∈ hist, ch ≠ []) (hm : L.Holds z d rest) (hs : V r.stream srem)
    (hsd : r.startingData.getD [] = []) (heq : hist.flatten ++ srem = z ++ rest)
    (hnb : r.noBuff = true) (hfin : L.codec.unused hist = [] → srem = []) (hP : P z r.blockSize) : GzEnd L V P rest r := by
  obtain ⟨o', h1, h2, h3, h4⟩ := hm.feed hc ⟨_, heq⟩
  have hun := unused_gz L hd
  have hz : ∃ a, hist.flatten = z ++ a := by
    rcases List.append_eq_append_iff.1 heq with ⟨a, ha, hb⟩ | ⟨a, ha, hb⟩
    · have : L.codec.unused hist = [] := by rw [h4, ha]; simp
      rw [hfin this, List.append_nil] at heq
      exact ⟨rest, heq⟩
    · exact ⟨a, ha⟩
  obtain ⟨a, ha⟩ := hz
  have hua : L.codec.unused hist = a := by rw [h4, ha]; simp
  have hr : rest = a ++ srem := by
    rw [ha, List.append_assoc] at heq; exact (List.append_cancel_left heq).symm
  refine ⟨hdt, hch, hbs, hone, ⟨hist, hd⟩, hnb, hsd, ⟨srem, hs, by rw [hun, hua, hr]⟩, ?_, ⟨_, hP⟩⟩
  intro hu
  rw [hun] at hu
  rw [hr, hfin hu, ← hua, hu]; rfl

/-- The loop of `_fillbuff` inside a member. -/
theorem gz_fillLoop (L : LawfulGzip IsMember) (hV : Short V) {rest : Bytes} :
    ∀ (fuel : Nat) (data : Bytes) (r : BufReader σ) (rem srem : Bytes) (hist : List Bytes) (z d o dr : Bytes),
    r.decompType = some .gzip → r.chunk = none → 0 < r.blockSize → r.readAllMembers = false →
    r.decompressor = some { kind := .gzip, hist := hist } →
    (∀ ch ∈ hist, ch ≠ []) → L.Holds z d rest → L.codec.run hist = some o → d = o ++ dr →
    V r.stream srem → r.startingData.getD [] = [] →
    hist.flatten ++ srem = z ++ rest → rem = r.buff.getD [] ++ dr → P z r.blockSize → hist ≠ [] →
    srem.length + 1 < fuel → (data = [] → srem = []) →
    ∃ r', fillLoop fuel data r = (.ok (), r') ∧ Gz L V P rest r' rem ∧ (rem ≠ [] → r'.noBuff = false) ∧
      (rem = [] → GzEnd L V P rest r') := by
  intro fuel
  induction fuel with
  | zero => intros; omega
  | succ fuel ih =>
    intro data r rem srem hist z d o dr hdt hch hbs hone hd hc hm hrun hdo hs hsd heq hrem hP hhn hf hdata
    have hgz : Gz L V P rest r rem :=
      ⟨hdt, hch, hbs, hone, hist, z, d, o, dr, srem, hd, hc, hm, hrun, hdo, hs, by simpa [hsd] using heq, hrem,
        Or.inr hsd, hP, fun h => absurd h hhn⟩
    have hbne : r.noBuff = false → rem = [] → False := by
      intro h h0
      rw [h0] at hrem
      have := (List.append_eq_nil_iff.1 hrem.symm).1
      rw [noBuff_iff.2 this] at h; cases h
    unfold fillLoop
    have hun := unused_gz L hd
    -- the member is complete: nothing more to come
    have hdone : (o = d) → dr = [] := by
      intro h; rw [hdo] at h
      have := congrArg List.length h; simp at this; exact this
    by_cases hcond : (!data.isEmpty && r.decompressor.isSome && r.unused.isEmpty) = true
    · rw [if_pos hcond, empty_one hone]
      simp only
      cases hnb : r.noBuff with
      | false => exact ⟨r, by simp, hgz, fun _ => hnb, fun h0 => (hbne hnb h0).elim⟩
      | true =>
        simp only [if_true]
        obtain ⟨p, rem', s', hp1, hp2, hp3, hp4, hp5⟩ := hV.read hs r.blockSize hbs
        simp only [readStream, hp4]
        by_cases hpe : p = []
        · -- end of the stream
          have hs0 := hp3 hpe
          subst hpe
          have hz : hist.flatten = z ++ rest := by simpa [hs0] using heq
          obtain ⟨o', h1, h2, h3, h4⟩ := hm.feed hc ⟨_, heq⟩
          rw [hrun] at h1; cases h1
          have hdr := hdone (h3 ⟨rest, hz.symm⟩)
          have hrem0 : rem = [] := by rw [hrem, noBuff_iff.1 hnb, hdr]; rfl
          obtain ⟨fuel, rfl⟩ : ∃ f, fuel = f + 1 := ⟨fuel - 1, by omega⟩
          refine ⟨{ r with stream := s', buff := none }, by simp [fillLoop, processRead], ?_, fun h => absurd hrem0 h, fun _ => ?_⟩
          · refine ⟨hdt, hch, hbs, hone, hist, z, d, o, dr, rem', hd, hc, hm, hrun, hdo, hp5, ?_, ?_, Or.inr hsd, hP, fun _ => rfl⟩
            · simp only [hsd, List.nil_append]
              rw [hs0, List.nil_append] at hp1; rw [← hp1, List.append_nil]; exact hz
            · simp [hrem0, hdr]
          · have hr' : rem' = [] := by rw [hs0, List.nil_append] at hp1; exact hp1.symm
            refine gzEnd_of L hdt hch hbs hone hd hc hm hp5 hsd ?_ rfl (fun _ => hr') hP
            rw [hr', List.append_nil]; exact hz
        · obtain ⟨o2, dr2, e1, e2, e3, e4, e5⟩ := gz_processRead L (r := { r with stream := s' }) hd hc hm hrun hdo hpe
            (by rw [← hp1]; exact heq)
          rw [e1]
          have hpl : 0 < p.length := List.length_pos_iff.2 hpe
          have hsl : srem.length = p.length + rem'.length := by rw [hp1]; simp
          refine ih p _ rem rem' (hist ++ [p]) z d (o ++ o2) dr2 hdt hch hbs hone rfl e4 hm e2
            (by rw [hdo, e3, List.append_assoc]) hp5 hsd e5 ?_ hP (by simp) (by omega) (fun h => absurd h hpe)
          simp only [Option.getD_some]
          rw [hrem, noBuff_iff.1 hnb, List.nil_append, e3]
    · rw [if_neg hcond]
      have hwhy : data = [] ∨ L.codec.unused hist ≠ [] := by
        by_cases hde : data = []
        · exact Or.inl hde
        · right
          intro h0; apply hcond
          rw [hun, h0, hd]
          cases data with
          | nil => exact absurd rfl hde
          | cons _ _ => rfl
      refine ⟨r, rfl, hgz, ?_, ?_⟩
      · intro hne
        cases hnb : r.noBuff with
        | false => rfl
        | true =>
          exfalso; apply hne
          rw [hrem, noBuff_iff.1 hnb, List.nil_append]
          apply hdone
          rcases hwhy with hde | hu
          · have hs0 := hdata hde
            have hz : hist.flatten = z ++ rest := by simpa [hs0] using heq
            obtain ⟨o', h1, h2, h3, h4⟩ := hm.feed hc ⟨_, heq⟩
            rw [hrun] at h1; cases h1
            exact h3 ⟨rest, hz.symm⟩
          · exact L.done_of_unused hm hc hrun heq hu
      · intro h0
        have hnb : r.noBuff = true := by
          cases hnb : r.noBuff with
          | true => rfl
          | false => exact (hbne hnb h0).elim
        refine gzEnd_of L hdt hch hbs hone hd hc hm hs hsd heq hnb ?_ hP
        intro hu
        rcases hwhy with hde | hu'
        · exact hdata hde
        · exact absurd hu hu'

theorem gz_fill (L : LawfulGzip IsMember) (hV : Short V) {rest : Bytes} {r : BufReader σ} {rem : Bytes}
    (h : Gz L V P rest r rem) :
    ∃ r', r.fillbuff = (.ok (), r') ∧ Gz L V P rest r' rem ∧ (rem ≠ [] → r'.noBuff = false) ∧
      (rem = [] → GzEnd L V P rest r') := by
  obtain ⟨hist, z, d, o, dr, srem, hd, hc, hm, hrun, hdo, hs, heq, hrem, hfr, hP, hfb⟩ := h.split
  unfold fillbuff
  rw [h.chunk]
  simp only
  unfold baseFill
  rw [empty_one h.one]
  simp only
  cases hnb : r.noBuff with
  | false =>
    refine ⟨r, by simp, h, fun _ => hnb, ?_⟩
    intro h0
    rw [h0] at hrem
    have := (List.append_eq_nil_iff.1 hrem.symm).1
    rw [noBuff_iff.2 this] at hnb; cases hnb
  | true =>
    simp only [Bool.not_true, Bool.false_eq_true, if_false]
    have hbuf := noBuff_iff.1 hnb
    rw [hbuf, List.nil_append] at hrem
    have hdone : (o = d) → dr = [] := by
      intro h; rw [hdo] at h
      have := congrArg List.length h; simp at this; exact this
    by_cases hrl : 0 < r.remLength
    · rw [if_pos hrl]
      rw [remLength_noBuff hnb, unused_gz L hd] at hrl
      have hu : L.codec.unused hist ≠ [] := by
        intro h0; rw [h0] at hrl; simp [len] at hrl
      refine ⟨r, rfl, h, ?_, ?_⟩
      · intro hne; exfalso; apply hne
        rw [hrem]; apply hdone
        exact L.done_of_unused hm hc hrun heq hu
      · intro _
        have hsd : r.startingData.getD [] = [] := by
          rcases hfr with h0 | h0
          · rw [h0, L.unused_nil] at hu; exact absurd rfl hu
          · exact h0
        rw [hsd, List.nil_append] at heq
        exact gzEnd_of L h.dtype h.chunk h.block h.one hd hc hm hs hsd heq hnb (fun h0 => absurd h0 hu) hP
    · rw [if_neg hrl]
      obtain ⟨p, s', sd', srem', e1, e2, e3, e4, e6⟩ := nextData_spec hV hs h.block
      rw [e1]
      simp only
      have hbd := hV.bound e2
      by_cases hpe : p = []
      · have h0 := e4 hpe
        have h0' : sd'.getD [] = [] ∧ srem' = [] := by
          rw [hpe, h0, List.nil_append] at e3; exact List.append_eq_nil_iff.1 e3
        have hz : hist.flatten = z ++ rest := by simpa [h0] using heq
        obtain ⟨o', h1, h2, h3, h4⟩ := hm.feed hc ⟨_, heq⟩
        rw [hrun] at h1; cases h1
        have hdr := hdone (h3 ⟨rest, hz.symm⟩)
        subst hpe
        refine ⟨{ r with stream := s', startingData := sd', buff := none }, by simp [fillLoop, processRead], ?_,
          fun hne => absurd (hrem.trans hdr) hne, fun _ => ?_⟩
        · exact ⟨h.dtype, h.chunk, h.block, h.one, hist, z, d, o, dr, srem', hd, hc, hm, hrun, hdo, e2,
          by simp [h0'.1, h0'.2, hz], by simp [hrem], Or.inr h0'.1, hP, fun _ => rfl⟩
        · exact gzEnd_of L h.dtype h.chunk h.block h.one hd hc hm e2 h0'.1 (by rw [h0'.2, List.append_nil]; exact hz) rfl
            (fun _ => h0'.2) hP
      · -- after a successful raw read nothing is left in `starting_data`
        have hsd' : sd'.getD [] = [] ∨ sd'.getD [] ≠ [] := Classical.em _
        obtain ⟨o2, dr2, f1, f2, f3, f4, f5⟩ := gz_processRead L (r := { r with stream := s', startingData := sd' })
          (t := sd'.getD [] ++ srem') hd hc hm hrun hdo hpe (by rw [e3]; exact heq)
        rw [f1]
        have hsdnil := e6
        rw [hsdnil, List.nil_append] at f5
        refine gz_fillLoop L hV _ p _ rem srem' (hist ++ [p]) z d (o ++ o2) dr2 h.dtype h.chunk h.block h.one rfl f4 hm f2
          (by rw [hdo, f3, List.append_assoc]) e2 hsdnil f5 ?_ hP (by simp) ?_ (fun h => absurd h hpe)
        · simp only [Option.getD_some]; rw [hrem, f3]
        · omega

theorem gz_fillLaw (L : LawfulGzip IsMember) (hV : Short V) (P : Bytes → Nat → Prop) (rest : Bytes) : FillLaw (Gz L V P rest (σ := σ)) where
  pre := by
    intro r rem h
    obtain ⟨hist, z, d, o, dr, srem, hd, hc, hm, hrun, hdo, hs, heq, hrem, hfr, hP, hfb⟩ := h.split
    exact ⟨_, hrem.symm⟩
  fill h := by
    obtain ⟨r', h1, h2, h3, _⟩ := gz_fill L hV h
    exact ⟨r', h1, h2, h3⟩
  empty := by
    intro r rem h; rw [empty_one h.one]; exact h
  take := by
    intro r rem h k hk
    obtain ⟨hist, z, d, o, dr, srem, hd, hc, hm, hrun, hdo, hs, heq, hrem, hfr, hP, hfb⟩ := h.split
    refine ⟨h.dtype, h.chunk, h.block, h.one, hist, z, d, o, dr, srem, hd, hc, hm, hrun, hdo, hs, heq, ?_, hfr, hP, fun h => by simp [hfb h]⟩
    rw [hrem, List.drop_append_of_le_length hk]; rfl
  bound := by
    intro r rem h
    obtain ⟨hist, z, d, o, dr, srem, hd, hc, hm, hrun, hdo, hs, heq, hrem, hfr, hP, hfb⟩ := h.split
    have hb := hV.bound hs
    have hr := hm.ratio
    have hl := congrArg List.length heq
    have hdl := congrArg List.length hdo
    simp only [List.length_append] at hl hdl
    simp only [BufReader.bound, hd, hrem, List.length_append]
    have h1 : z.length ≤ hist.flatten.length + (r.startingData.getD []).length + PyStream.bound r.stream := by omega
    have h2 := Nat.mul_le_mul_left Zlib.ratio h1
    have h3 : Zlib.ratio * (hist.flatten.length + (r.startingData.getD []).length + PyStream.bound r.stream) ≤
      (Zlib.ratio + 1) * (hist.flatten.length + (r.startingData.getD []).length + PyStream.bound r.stream) :=
        Nat.mul_le_mul_right _ (Nat.le_succ _)
    omega

/-- A reader that expects gzip, has not read anything yet, and whose first raw read delivers
at least two bytes that are not the gzip magic (or the stream is at its end). -/
structure Fresh (V : σ → Bytes → Prop) (Q : Nat → Prop) (r : BufReader σ) (rem : Bytes) : Prop where
  decomp : r.decompressor = some { kind := .gzip, hist := [] }
  dtype : r.decompType = some .gzip
  chunk : r.chunk = none
  block : 0 < r.blockSize
  cond : Q r.blockSize
  one : r.readAllMembers = false
  count : r.numBlockRead = 0
  buff : r.buff.getD [] = []
  sd : r.startingData.getD [] = []
  view : V r.stream rem
  first : ∀ p s', PyStream.read r.stream (some (r.blockSize : Int)) = (.ok p, s') → p ≠ [] →
    2 ≤ p.length ∧ ¬ [0x1f, 0x8b] <+: p

/-- Undecided, then plain. -/
def FreshPlain (V : σ → Bytes → Prop) (Q : Nat → Prop) (r : BufReader σ) (rem : Bytes) : Prop :=
  Fresh V Q r rem ∨ Plain V Q r rem

theorem fresh_fill (L : LawfulGzip IsMember) (hV : Short V) {r : BufReader σ} {rem : Bytes}
    (h : Fresh V Q r rem) :
    ∃ r', r.fillbuff = (.ok (), r') ∧ FreshPlain V Q r' rem ∧ (rem ≠ [] → r'.noBuff = false) := by
  unfold fillbuff
  rw [h.chunk]
  simp only
  unfold baseFill
  rw [empty_one h.one]
  have hnb : r.noBuff = true := noBuff_iff.2 h.buff
  have hrl : ¬ (0 < r.remLength) := by
    rw [remLength_noBuff hnb, unused_gz L h.decomp, L.unused_nil]; simp [len]
  simp only [hnb, Bool.not_true, Bool.false_eq_true, if_false, hrl]
  obtain ⟨p, rem', s', hp1, _, hp3, hp4, hp5⟩ := hV.read h.view r.blockSize h.block
  by_cases hp : p = []
  · have hrem := hp3 hp
    subst hp
    refine ⟨{ r with stream := s', buff := none }, ?_, Or.inl ?_, fun h => absurd hrem h⟩
    · simp [nextData, h.sd, readStream, hp4, processRead, fillLoop]
    · have hr' : rem' = rem := hp1.symm
      refine ⟨h.decomp, h.dtype, h.chunk, h.block, h.cond, h.one, h.count, rfl, h.sd, hr' ▸ hp5, ?_⟩
      intro q s'' hq hne
      obtain ⟨p2, rem2, s2, e1, _, _, e4, _⟩ := hV.read hp5 r.blockSize h.block
      rw [hr', hrem] at e1
      have : p2 = [] := (List.append_eq_nil_iff.1 e1.symm).1
      have e5 : q = p2 := by
        have := e4.symm.trans hq; simp at this; exact this.1.symm
      exact absurd (e5.trans this) hne
  · obtain ⟨hl, hm⟩ := h.first p s' hp4 hp
    have hpe : p.isEmpty = false := by cases p with
      | nil => simp at hl
      | cons _ _ => rfl
    refine ⟨{ r with stream := s', decompressor := none, numRead := r.numRead + p.length,
                     numBlockRead := r.numBlockRead + p.length, buff := some p }, ?_, Or.inr ?_, ?_⟩
    · simp [nextData, h.sd, readStream, hp4, processRead, hpe, decompress, h.decomp, feed, L.codec_eq,
        L.notGzip hl hm, h.count, h.dtype, fillLoop]
    · exact ⟨rfl, h.chunk, h.block, h.cond, h.sd, rem', hp5, by simp [hp1]⟩
    · intro _; simp [noBuff, hpe]

theorem freshPlain_fillLaw (L : LawfulGzip IsMember) (hV : Short V) :
    FillLaw (FreshPlain V Q (σ := σ)) where
  pre := by
    rintro r rem (h | h)
    · rw [h.buff]; exact List.nil_prefix
    · exact (plain_fillLaw hV).pre h
  fill := by
    rintro r rem (h | h)
    · exact fresh_fill L hV h
    · obtain ⟨r', h1, h2, h3⟩ := plain_fill hV h
      exact ⟨r', h1, Or.inr h2, h3⟩
  empty := by
    rintro r rem (h | h)
    · rw [empty_one h.one]; exact Or.inl h
    · exact Or.inr ((plain_fillLaw hV).empty h)
  take := by
    rintro r rem (h | h) k hk
    · rw [h.buff] at hk; simp at hk; subst hk
      exact Or.inl ⟨h.decomp, h.dtype, h.chunk, h.block, h.cond, h.one, h.count, by simp [h.buff], h.sd, h.view, h.first⟩
    · exact Or.inr ((plain_fillLaw hV).take h k hk)
  bound := by
    rintro r rem (h | h)
    · have hb := hV.bound h.view
      simp only [BufReader.bound, h.decomp]
      have h3 := Nat.le_mul_of_pos_left (0 + (r.startingData.getD []).length + PyStream.bound r.stream)
        (Nat.succ_pos Zlib.ratio)
      simp only [List.flatten_nil, List.length_nil]
      simp only [Nat.succ_eq_add_one] at h3
      omega
    · exact (plain_fillLaw hV).bound h

/-- `_fillbuff` with nothing left of the member reaches `GzEnd`. -/
theorem gz_fill_end (L : LawfulGzip IsMember) (hV : Short V) {rest : Bytes} {r : BufReader σ}
    (h : Gz L V P rest r []) : ∃ r', r.fillbuff = (.ok (), r') ∧ GzEnd L V P rest r' := by
  obtain ⟨r', h1, _, _, h4⟩ := gz_fill L hV h
  exact ⟨r', h1, h4 rfl⟩

/-- A `readline()` that finds nothing left of the member reaches `GzEnd`. -/
theorem gz_readline_end (L : LawfulGzip IsMember) (hV : Short V) {rest : Bytes} {r : BufReader σ}
    (h : Gz L V P rest r []) : ∃ r', r.readline none = (.ok [], r') ∧ GzEnd L V P rest r' := by
  obtain ⟨r', h1, h2⟩ := gz_fill_end L hV h
  refine ⟨r', ?_, h2⟩
  simp [BufReader.readline, h1, empty_one h2.one, h2.buff]

/-- The same, and the reader still is one of that member. -/
theorem gz_readline_last (L : LawfulGzip IsMember) (hV : Short V) {rest : Bytes} {r : BufReader σ}
    (h : Gz L V P rest r []) : ∃ r', r.readline none = (.ok [], r') ∧ GzEnd L V P rest r' ∧ Gz L V P rest r' [] := by
  obtain ⟨r', h1, h2, _, h4⟩ := gz_fill L hV h
  refine ⟨r', ?_, h4 rfl, h2⟩
  simp [BufReader.readline, h1, empty_one (h4 rfl).one, (h4 rfl).buff]

/-- Nothing follows the member. -/
theorem gz_unused_nil (L : LawfulGzip IsMember) {r : BufReader σ} {rem : Bytes} (h : Gz L V P [] r rem) :
    r.unused = [] ∧ r.decompressor.isSome = true ∧ r.readNextMember = (false, r) := by
  obtain ⟨hist, z, d, o, dr, srem, hd, hc, hm, hrun, hdo, hs, heq, hrem, hfr, hP, hfb⟩ := h.split
  have hu : r.unused = [] := by
    rw [unused_gz L hd]
    obtain ⟨_, _, _, _, h4⟩ := hm.feed hc ⟨_, heq⟩
    rw [h4]
    have := congrArg List.length heq
    simp only [List.length_append, List.length_nil] at this
    exact List.drop_eq_nil_of_le (by omega)
  have hdu : Decompressor.unused { kind := .gzip, hist := hist } = [] := by rw [← hu]; simp [BufReader.unused, hd]
  exact ⟨hu, by rw [hd]; rfl, by simp only [readNextMember, hd, hdu, if_true]⟩

/-- `read_next_member` after the end of a member. -/
theorem gzEnd_next (L : LawfulGzip IsMember) {rest : Bytes} {r : BufReader σ} (h : GzEnd L V P rest r) :
    (rest = [] ∧ r.readNextMember = (false, r)) ∨
    (rest ≠ [] ∧ ∃ r', r.readNextMember = (true, r') ∧
      (∀ z d rest', rest = z ++ rest' → L.Holds z d rest' → P z r.blockSize → Gz L V P rest' r' d)) := by
  obtain ⟨hist, hd⟩ := h.decomp
  obtain ⟨srem, hs, hrest⟩ := h.split
  have hun := unused_gz L hd
  have hdu : Decompressor.unused { kind := .gzip, hist := hist } = r.unused := by
    simp [BufReader.unused, hd]
  by_cases hu : r.unused = []
  · left
    refine ⟨h.fin hu, ?_⟩
    simp only [readNextMember, hd, hdu, hu, if_true]
  · right
    refine ⟨?_, { r with startingData := some r.unused, numBlockRead := 0, decompType := some .gzip,
                         decompressor := some { kind := .gzip } }, ?_, ?_⟩
    · intro h0; rw [h0] at hrest
      exact hu (List.append_eq_nil_iff.1 hrest.symm).1
    · simp only [readNextMember, hd, hdu, hu, if_false, initDecomp, h.dtype]
    · intro z d rest' hz hm hP
      refine ⟨rfl, h.chunk, h.block, h.one, [], z, d, [], d, srem, rfl, by simp, hm, rfl, rfl, hs, ?_, ?_, Or.inl rfl, hP, fun _ => noBuff_iff.1 h.buff⟩
      · simp only [Option.getD_some, List.flatten_nil, List.nil_append]; rw [← hrest, hz]
      · rw [noBuff_iff.1 h.buff]; rfl

end BufReader
end Warcio
