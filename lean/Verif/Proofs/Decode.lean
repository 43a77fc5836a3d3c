import Verif.Proofs.Chunked
import Verif.Spec.Content

/-!
# Readers that decode

`K r p d`: a reader `r`, when it is fed with `p`, in pieces of any size, delivers `d`.
-/

set_option linter.unusedSectionVars false

namespace Warcio

def LawfulGzip.lawfulCodec [Zlib] {IsMember : Bytes → Bytes → Prop} (L : LawfulGzip IsMember) : LawfulCodec .gzip IsMember :=
  ⟨L.codec, L.codec_eq, L.member, L.ratio⟩

namespace BufReader

variable {σ : Type} [Zlib] [PyStream σ] {V : σ → Bytes → Prop}

/-- Everything but the decoder and the buffer is the same. -/
structure SameBut (r r' : BufReader σ) : Prop where
  stream : r'.stream = r.stream
  block : r'.blockSize = r.blockSize
  chunk : r'.chunk = r.chunk
  sd : r'.startingData = r.startingData
  all : r'.readAllMembers = r.readAllMembers

/-- The decoders are the same. -/
structure SameDec (r r' : BufReader σ) : Prop where
  type : r'.decompType = r.decompType
  dec : r'.decompressor = r.decompressor
  num : r'.numBlockRead = r.numBlockRead

/-- How much the decompressor was fed. -/
def fedLen (r : BufReader σ) : Nat := match r.decompressor with | some d => d.hist.flatten.length | none => 0

theorem bound_eq (r : BufReader σ) : r.bound = (r.buff.getD []).length + (Zlib.ratio + 1) * (fedLen r + (r.startingData.getD []).length + PyStream.bound r.stream) := by
  unfold BufReader.bound fedLen
  cases r.decompressor <;> rfl

/-- The laws of a decoder. -/
structure Decoder (K : BufReader σ → Bytes → Bytes → Prop) : Prop where
  same : ∀ {r r' p d}, K r p d → SameDec r r' → K r' p d
  feed : ∀ {r x p d}, K r (x ++ p) d → x ≠ [] → ∃ o d', d = o ++ d' ∧ (r.processRead x).buff = some o ∧ SameBut r (r.processRead x) ∧ K (r.processRead x) p d' ∧
    ((r.processRead x).decompressor = none → o ≠ [])
  done : ∀ {r d}, K r [] d → d = []
  unused : ∀ {r p d}, K r p d → r.unused ≠ [] → d = []
  /-- without a decompressor everything that is fed is delivered -/
  plain : ∀ {r p d}, K r p d → r.decompressor = none → d = p
  bound : ∀ {r p d}, K r p d → d.length ≤ (Zlib.ratio + 1) * (fedLen r + p.length)

theorem SameDec.refl {r : BufReader σ} : SameDec r r := ⟨rfl, rfl, rfl⟩
theorem SameBut.refl {r : BufReader σ} : SameBut r r := ⟨rfl, rfl, rfl, rfl, rfl⟩

theorem processRead_nil {r : BufReader σ} : r.processRead [] = { r with buff := none } := rfl

/-- No decompressor. -/
def KPlain (r : BufReader σ) (p d : Bytes) : Prop := r.decompressor = none ∧ d = p

theorem kPlain : Decoder (KPlain (σ := σ)) where
  same := by rintro r r' p d ⟨h1, h2⟩ h; exact ⟨h.dec.trans h1, h2⟩
  feed := by
    rintro r x p d ⟨h1, h2⟩ hx
    have hx0 : x.isEmpty = false := by cases x <;> simp_all
    have he : r.processRead x = { r with numRead := r.numRead + x.length, numBlockRead := r.numBlockRead + x.length, buff := some x } := by
      unfold processRead
      rw [hx0]
      simp [decompress, h1]
    rw [he]
    exact ⟨x, p, h2, rfl, ⟨rfl, rfl, rfl, rfl, rfl⟩, ⟨h1, rfl⟩, fun _ => hx⟩
  done := by rintro r d ⟨_, h⟩; exact h
  unused := by rintro r p d ⟨h, _⟩ hu; simp [BufReader.unused, h] at hu
  plain := by rintro r p d ⟨_, h⟩ _; exact h
  bound := by
    rintro r p d ⟨h1, h2⟩
    rw [h2]
    unfold fedLen
    rw [h1]
    dsimp only
    rw [Nat.zero_add, Nat.add_mul]
    omega

/-- A decompressor inside a coded string, behind which there may be more. -/
def KCodec {k : DType} {IsCoded : Bytes → Bytes → Prop} (L : LawfulCodec k IsCoded) (r : BufReader σ) (p d : Bytes) : Prop :=
  ∃ hist z dd o more, r.decompressor = some { kind := k, hist := hist } ∧ (∀ ch ∈ hist, ch ≠ []) ∧ IsCoded z dd ∧ L.codec.run hist = some o ∧ dd = o ++ d ∧
    hist.flatten ++ p = z ++ more

theorem cmp_of {z rest t h : Bytes} (heq : h ++ t = z ++ rest) : h <+: z ∨ z <+: h :=
  List.append_eq_append_iff.1 heq |>.elim (fun ⟨a, ha, _⟩ => Or.inl ⟨a, ha.symm⟩) (fun ⟨a, ha, _⟩ => Or.inr ⟨a, ha.symm⟩)

theorem kCodec {k : DType} {IsCoded : Bytes → Bytes → Prop} (L : LawfulCodec k IsCoded) : Decoder (KCodec L (σ := σ)) where
  same := by
    rintro r r' p d ⟨hist, z, dd, o, more, h1, h⟩ hs
    exact ⟨hist, z, dd, o, more, hs.dec.trans h1, h⟩
  feed := by
    rintro r x p d ⟨hist, z, dd, o, more, h1, h2, h3, h4, h5, h6⟩ hx
    have hc' : ∀ ch ∈ hist ++ [x], ch ≠ [] := by
      intro ch hch
      rcases List.mem_append.1 hch with h | h
      · exact h2 ch h
      · simp at h; subst h; exact hx
    have heq' : (hist ++ [x]).flatten ++ p = z ++ more := by simpa using h6
    obtain ⟨o', k1, k2, k3, k4⟩ := L.member h3 hc' (cmp_of heq')
    have k1' := k1
    rw [Codec.run_snoc, h4] at k1
    simp only at k1
    cases ho : L.codec.out hist x with
    | none => rw [ho] at k1; simp at k1
    | some o2 =>
      rw [ho] at k1; simp only [Option.some.injEq] at k1
      obtain ⟨d2, hd2⟩ := k2
      have hd : d = o2 ++ d2 := by
        rw [h5, ← k1, List.append_assoc] at hd2
        exact (List.append_cancel_left hd2).symm
      have hxe : x.isEmpty = false := by cases x <;> simp_all
      have he : r.processRead x = { r with decompressor := some { kind := k, hist := hist ++ [x] }, numRead := r.numRead + o2.length, numBlockRead := r.numBlockRead + o2.length, buff := some o2 } := by
        unfold processRead
        simp [hxe, decompress, h1, BufReader.feed, L.codec_eq, ho]
      rw [he]
      exact ⟨o2, d2, hd, rfl, ⟨rfl, rfl, rfl, rfl, rfl⟩, ⟨hist ++ [x], z, dd, o ++ o2, more, rfl, hc', h3, by rw [k1', ← k1], by rw [h5, hd, List.append_assoc], heq'⟩, fun h => by cases h⟩
  done := by
    rintro r d ⟨hist, z, dd, o, more, h1, h2, h3, h4, h5, h6⟩
    rw [List.append_nil] at h6
    have hz : z <+: hist.flatten := ⟨more, h6.symm⟩
    obtain ⟨o', k1, k2, k3, k4⟩ := L.member h3 h2 (.inr hz)
    rw [h4] at k1
    cases k1
    rw [k3 hz] at h5
    exact List.append_right_eq_self.1 h5.symm
  unused := by
    rintro r p d ⟨hist, z, dd, o, more, h1, h2, h3, h4, h5, h6⟩ hu
    have hun : r.unused = L.codec.unused hist := by simp [BufReader.unused, h1, Decompressor.unused, L.codec_eq]
    obtain ⟨o', k1, k2, k3, k4⟩ := L.member h3 h2 (cmp_of h6)
    rw [h4] at k1
    cases k1
    have hz : z <+: hist.flatten := by
      rcases cmp_of h6 with ⟨a, ha⟩ | h
      · exfalso; apply hu; rw [hun, k4, ← ha]; simp
      · exact h
    rw [k3 hz] at h5
    exact List.append_right_eq_self.1 h5.symm
  plain := by
    rintro r p d ⟨hist, z, dd, o, more, h1, h⟩ hn
    rw [h1] at hn; cases hn
  bound := by
    rintro r p d ⟨hist, z, dd, o, more, h1, h2, h3, h4, h5, h6⟩
    have := L.ratio h3
    unfold fedLen
    rw [h1]
    dsimp only
    have h7 : hist.flatten.length + p.length = z.length + more.length := by rw [← List.length_append, h6, List.length_append]
    have h8 : dd.length = o.length + d.length := by rw [h5, List.length_append]
    rw [h7, Nat.add_mul, Nat.mul_add]
    omega

/-- Nothing to be decoded. -/
def KNone (_ : BufReader σ) (p d : Bytes) : Prop := p = [] ∧ d = []

theorem kNone : Decoder (KNone (σ := σ)) where
  same := by rintro r r' p d h _; exact h
  feed := by
    rintro r x p d ⟨h, -⟩ hx
    exact absurd (List.append_eq_nil_iff.1 h).1 hx
  done := by rintro r d ⟨_, h⟩; exact h
  unused := by rintro r p d ⟨_, h⟩ _; exact h
  plain := by rintro r p d ⟨h, h'⟩ _; rw [h, h']
  bound := by
    rintro r p d ⟨h, h'⟩
    rw [h']
    exact Nat.zero_le _

variable {K : BufReader σ → Bytes → Bytes → Prop}

/-! ## Not chunked -/

/-- A reader that decodes all of its stream. -/
structure DecAll (K : BufReader σ → Bytes → Bytes → Prop) (V : σ → Bytes → Prop) (r : BufReader σ) (rem : Bytes) : Prop where
  chunk : r.chunk = none
  block : 0 < r.blockSize
  one : r.readAllMembers = false
  sd : r.startingData.getD [] = []
  split : ∃ p d, V r.stream p ∧ K r p d ∧ rem = r.buff.getD [] ++ d

theorem noBuff_of {r : BufReader σ} {d : Bytes} (hd : d = []) : r.buff.getD [] ++ d ≠ [] → r.noBuff = false := by
  rw [hd, List.append_nil]
  intro hne
  cases hnb : r.noBuff with
  | false => rfl
  | true => exact absurd (noBuff_iff.1 hnb) hne

theorem decAll_loop (D : Decoder K) (hV : Short V) : ∀ (fuel : Nat) (data : Bytes) (r : BufReader σ) (p d : Bytes),
    r.chunk = none → 0 < r.blockSize → r.readAllMembers = false → r.startingData.getD [] = [] → V r.stream p → K r p d → (data = [] → p = []) →
    (r.decompressor = none → data ≠ [] → r.buff.getD [] ≠ []) → p.length + data.length.min 1 < fuel →
    ∃ r', fillLoop fuel data r = (.ok (), r') ∧ DecAll K V r' (r.buff.getD [] ++ d) ∧ (r.buff.getD [] ++ d ≠ [] → r'.noBuff = false) := by
  intro fuel
  induction fuel with
  | zero => intros; omega
  | succ fuel ih =>
    intro data r p d h1 h2 h3 h4 h5 h6 h7 h9 h8
    have here : DecAll K V r (r.buff.getD [] ++ d) := ⟨h1, h2, h3, h4, p, d, h5, h6, rfl⟩
    unfold fillLoop
    by_cases hdat : data = []
    · subst hdat
      have hp := h7 rfl
      subst hp
      exact ⟨r, by simp, here, noBuff_of (D.done h6)⟩
    · have hde : data.isEmpty = false := by cases data <;> simp_all
      have hlen : data.length.min 1 = 1 := by
        have := List.length_pos_iff.2 hdat
        exact Nat.min_eq_right this
      rw [hlen] at h8
      cases hnb : r.noBuff with
      | false =>
        refine ⟨r, ?_, here, fun _ => hnb⟩
        split
        · rw [empty_one h3, hnb]; rfl
        · rfl
      | true =>
        have hbuf := noBuff_iff.1 hnb
        cases hdc : r.decompressor with
        | none => exact absurd hbuf (h9 hdc hdat)
        | some dc =>
          by_cases hu : r.unused = []
          · rw [if_pos (by simp [hde, hu])]
            rw [empty_one h3, hnb]
            dsimp only
            rw [if_pos rfl]
            obtain ⟨x, p', s', e1, e2, e3, e4, e5⟩ := hV.read h5 r.blockSize h2
            have hrd : r.readStream r.blockSize = (.ok x, { r with stream := s' }) := by simp [readStream, e4]
            rw [hrd]
            dsimp only
            have hk : K ({ r with stream := s' } : BufReader σ) (x ++ p') d := D.same (r := r) (e1 ▸ h6) ⟨rfl, rfl, rfl⟩
            by_cases hx : x = []
            · subst hx
              have hp0 := e3 rfl
              subst hp0
              have hp' : p' = [] := by simpa using e1.symm
              subst hp'
              rw [processRead_nil]
              have hd := D.done h6
              obtain ⟨r', g1, g2, g3⟩ := ih [] { r with stream := s', buff := none } [] d h1 h2 h3 h4 e5 (D.same hk ⟨rfl, rfl, rfl⟩) (fun _ => rfl) (fun _ h => absurd rfl h)
                (by simp at h8 ⊢; omega)
              refine ⟨r', g1, ?_, ?_⟩
              · rw [hbuf]; exact g2
              · rw [hbuf]; exact g3
            · obtain ⟨o, d', f1, f2, f3, f4, f5⟩ := D.feed hk hx
              have hpl : p'.length < p.length := by
                rw [e1, List.length_append]
                have := List.length_pos_iff.2 hx
                omega
              obtain ⟨r', g1, g2, g3⟩ := ih x _ p' d' (f3.chunk.trans h1) (by rw [f3.block]; exact h2) (f3.all.trans h3) (by rw [f3.sd]; exact h4) (by rw [f3.stream]; exact e5) f4
                (fun h => absurd h hx) (fun h _ => by rw [f2]; exact f5 h) (by have : x.length.min 1 ≤ 1 := Nat.min_le_right _ _; omega)
              have hb' : (({ r with stream := s' } : BufReader σ).processRead x).buff.getD [] = o := by rw [f2]; rfl
              rw [hb'] at g2 g3
              rw [hbuf, List.nil_append, f1]
              exact ⟨r', g1, g2, g3⟩
          · rw [if_neg (by simp [hu])]
            exact ⟨r, rfl, here, noBuff_of (D.unused h6 hu)⟩

theorem decAll_fillLaw (D : Decoder K) (hV : Short V) : FillLaw (DecAll K V (σ := σ)) where
  pre := by
    rintro r rem ⟨-, -, -, -, p, d, -, -, h⟩
    exact ⟨d, h.symm⟩
  fill := by
    rintro r rem ⟨h1, h2, h3, h4, p, d, h5, h6, rfl⟩
    have here : DecAll K V r (r.buff.getD [] ++ d) := ⟨h1, h2, h3, h4, p, d, h5, h6, rfl⟩
    have hf : r.fillbuff = r.baseFill := by simp [fillbuff, h1]
    rw [hf]
    unfold baseFill
    rw [empty_one h3]
    dsimp only
    cases hnb : r.noBuff with
    | false => exact ⟨r, by simp, here, fun _ => hnb⟩
    | true =>
      have hbuf := noBuff_iff.1 hnb
      simp only [Bool.not_true, Bool.false_eq_true, if_false]
      rw [remLength_noBuff hnb]
      by_cases hu : r.unused = []
      · rw [hu, if_neg (by simp [len])]
        obtain ⟨x, p', s', e1, e2, e3, e4, e5⟩ := hV.read h5 r.blockSize h2
        have hrd : r.nextData = (.ok x, { r with stream := s' }) := by simp [nextData, h4, readStream, e4]
        rw [hrd]
        dsimp only
        have hb := hV.bound e5
        have hk : K ({ r with stream := s' } : BufReader σ) (x ++ p') d := D.same (r := r) (e1 ▸ h6) ⟨rfl, rfl, rfl⟩
        by_cases hx : x = []
        · subst hx
          have hp0 := e3 rfl
          subst hp0
          have hp' : p' = [] := by simpa using e1.symm
          subst hp'
          rw [processRead_nil]
          obtain ⟨r', g1, g2, g3⟩ := decAll_loop D hV (PyStream.bound s' + 2) [] { r with stream := s', buff := none } [] d h1 h2 h3 h4 e5 (D.same hk ⟨rfl, rfl, rfl⟩) (fun _ => rfl)
            (fun _ h => absurd rfl h) (by simp)
          rw [hbuf]
          exact ⟨r', g1, g2, g3⟩
        · obtain ⟨o, d', f1, f2, f3, f4, f5⟩ := D.feed hk hx
          obtain ⟨r', g1, g2, g3⟩ := decAll_loop D hV (PyStream.bound s' + 2) x _ p' d' (f3.chunk.trans h1) (by rw [f3.block]; exact h2) (f3.all.trans h3) (by rw [f3.sd]; exact h4)
            (by rw [f3.stream]; exact e5) f4 (fun h => absurd h hx) (fun h _ => by rw [f2]; exact f5 h) (by have : x.length.min 1 ≤ 1 := Nat.min_le_right _ _; omega)
          have hb' : (({ r with stream := s' } : BufReader σ).processRead x).buff.getD [] = o := by rw [f2]; rfl
          rw [hb'] at g2 g3
          rw [hbuf, List.nil_append, f1]
          exact ⟨r', g1, g2, g3⟩
      · rw [if_pos (by have := List.length_pos_iff.2 hu; simp only [len]; omega)]
        exact ⟨r, rfl, here, noBuff_of (D.unused h6 hu)⟩
  empty := by
    intro r rem h
    rw [empty_one h.one]; exact h
  take := by
    rintro r rem ⟨h1, h2, h3, h4, p, d, h5, h6, rfl⟩ k hk
    refine ⟨h1, h2, h3, h4, p, d, h5, D.same h6 ⟨rfl, rfl, rfl⟩, ?_⟩
    rw [List.drop_append_of_le_length hk]; rfl
  bound := by
    rintro r rem ⟨h1, h2, h3, h4, p, d, h5, h6, rfl⟩
    have h7 := D.bound h6
    have h8 := hV.bound h5
    rw [bound_eq, List.length_append, h4]
    refine Nat.add_le_add_left (Nat.le_trans h7 (Nat.mul_le_mul_left _ ?_)) _
    simp only [List.length_nil]
    omega

/-! ## Chunked -/

/-- One chunk is read. -/
theorem fillLoop_chunk (hG : Gets V) (hL : LineLaw V 64) {r : BufReader σ} {c : ChunkState} (hc : r.chunk = some c) (h1 : r.readAllMembers = false) (hnb : r.noBuff = true)
    (ha : c.allChunksRead = false) (hn : c.notChunked = false) {l d t : Bytes} {n : Int} (hl : LooseLine l n) (hn0 : n ≠ 0) (hd : d.length = n.toNat)
    (hs : V r.stream (l ++ crlf ++ d ++ crlf ++ t)) (fuel : Nat) :
    ∃ s', V s' t ∧ chunkedFillLoop (fuel + 1) r = chunkedFillLoop fuel (({ r with stream := s' } : BufReader σ).processRead d) := by
  have e0 : l ++ crlf ++ d ++ crlf ++ t = l ++ crlf ++ (d ++ crlf ++ t) := by simp only [List.append_assoc]
  rw [e0] at hs
  have hh := header_of_line (t := d ++ crlf ++ t) hl.1 hl.2.1
  have hmem : (10 : UInt8) ∈ l ++ crlf ++ (d ++ crlf ++ t) := by simp
  have htl : (takeLine (l ++ crlf ++ (d ++ crlf ++ t))).length ≤ 64 := by
    have : l ++ crlf ++ (d ++ crlf ++ t) = (l ++ [13]) ++ 10 :: (d ++ crlf ++ t) := by simp
    rw [this, takeLine_of_no_lf (by simpa using hl.1)]
    have := hl.2.1
    simp; omega
  obtain ⟨s1, l1, l2⟩ := hL hs hmem htl 64
  rw [hh] at l1 l2
  rw [List.drop_left] at l2
  have hb := hG.bound l2
  obtain ⟨s2, m1, m2⟩ := chunkLoop_full hG c.raiseExceptions (fuel := PyStream.bound s1 + 2) (n := n) (r := { r with stream := s1 }) l2 (by omega)
    (by simp only [len, List.length_append]; omega)
  rw [← hd, List.append_assoc, List.take_left] at m1
  rw [← hd, List.append_assoc, List.drop_left] at m2
  obtain ⟨s3, n1, n2⟩ := hG.read_some m2 2
  have e3 : (crlf ++ t).take 2 = crlf := rfl
  have e4 : (crlf ++ t).drop 2 = t := rfl
  rw [e3] at n1
  rw [e4] at n2
  refine ⟨s3, n2, ?_⟩
  have hrl : r.readlineStream 64 = (.ok (l ++ crlf), { r with stream := s1 }) := by
    simp only [readlineStream]
    have : ((64 : Nat) : Int) = 64 := rfl
    rw [← this, l1]
  have hrs : ({ r with stream := s2 } : BufReader σ).readStream 2 = (.ok crlf, { r with stream := s3 }) := by
    simp only [readStream]
    have : ((2 : Nat) : Int) = 2 := rfl
    rw [← this, n1]
  have htd : ({ r with stream := s1 } : BufReader σ).tryDecode c (l ++ crlf) = (.ok (), ({ r with stream := s3 } : BufReader σ).processRead d) := by
    unfold tryDecode
    rw [chunkSizeOf_line hl]
    dsimp only
    rw [if_neg hn0, m1]
    dsimp only
    rw [if_neg (by decide), hrs]
    dsimp only
    rw [if_pos rfl]
  conv => lhs; unfold chunkedFillLoop
  rw [empty_one h1]
  simp only [hc, Option.getD_some, hnb, ha, hn, Bool.not_false, Bool.and_true, if_true, hrl]
  rw [← hc, htd]

/-- The last chunk is read. -/
theorem fillLoop_last (hG : Gets V) (hL : LineLaw V 64) {r : BufReader σ} {c : ChunkState} (hc : r.chunk = some c) (h1 : r.readAllMembers = false) (hnb : r.noBuff = true)
    (ha : c.allChunksRead = false) (hn : c.notChunked = false) {l t : Bytes} (hl : LooseLine l 0)
    (hs : V r.stream (l ++ crlf ++ crlf ++ t)) (fuel : Nat) :
    ∃ s', V s' t ∧ chunkedFillLoop (fuel + 1) r = chunkedFillLoop fuel { r with stream := s', chunk := some { c with allChunksRead := true }, buff := none } := by
  rw [List.append_assoc] at hs
  have hh := header_of_line (t := crlf ++ t) hl.1 hl.2.1
  have hmem : (10 : UInt8) ∈ l ++ crlf ++ (crlf ++ t) := by simp
  have htl : (takeLine (l ++ crlf ++ (crlf ++ t))).length ≤ 64 := by
    have : l ++ crlf ++ (crlf ++ t) = (l ++ [13]) ++ 10 :: (crlf ++ t) := by simp
    rw [this, takeLine_of_no_lf (by simpa using hl.1)]
    have := hl.2.1
    simp; omega
  obtain ⟨s1, l1, l2⟩ := hL hs hmem htl 64
  rw [hh] at l1 l2
  rw [List.drop_left] at l2
  obtain ⟨s3, n1, n2⟩ := hG.read_some l2 2
  have e3 : (crlf ++ t).take 2 = crlf := rfl
  have e4 : (crlf ++ t).drop 2 = t := rfl
  rw [e3] at n1
  rw [e4] at n2
  refine ⟨s3, n2, ?_⟩
  have hrl : r.readlineStream 64 = (.ok (l ++ crlf), { r with stream := s1 }) := by
    simp only [readlineStream]
    have : ((64 : Nat) : Int) = 64 := rfl
    rw [← this, l1]
  have hrs : ({ r with stream := s1 } : BufReader σ).readStream 2 = (.ok crlf, { r with stream := s3 }) := by
    simp only [readStream]
    have : ((2 : Nat) : Int) = 2 := rfl
    rw [← this, n1]
  have htd : ({ r with stream := s1 } : BufReader σ).tryDecode c (l ++ crlf) = (.ok (), { r with stream := s3, chunk := some { c with allChunksRead := true }, buff := none }) := by
    unfold tryDecode
    rw [chunkSizeOf_line hl]
    dsimp only
    rw [if_pos rfl, hrs]
    dsimp only
    rw [if_pos rfl]
    rfl
  conv => lhs; unfold chunkedFillLoop
  rw [empty_one h1]
  simp only [hc, Option.getD_some, hnb, ha, hn, Bool.not_false, Bool.and_true, if_true, hrl]
  rw [← hc, htd]
  dsimp only
  rw [hn]

/-- A reader inside a chunked body whose payload it decodes; `rest` follows the body. -/
structure DecChunks (K : BufReader σ → Bytes → Bytes → Prop) (V : σ → Bytes → Prop) (rest : Bytes) (r : BufReader σ) (rem : Bytes) : Prop where
  block : 0 < r.blockSize
  one : r.readAllMembers = false
  split : ∃ c s p d, r.chunk = some c ∧ c.notChunked = false ∧ V r.stream s ∧ K r p d ∧ rem = r.buff.getD [] ++ d ∧
    ((c.allChunksRead = true ∧ s = rest ∧ p = []) ∨ (c.allChunksRead = false ∧ ∃ e, LooseBody e p ∧ s = e ++ rest))

theorem looseBody_len {e p : Bytes} (h : LooseBody e p) : p.length ≤ e.length := by
  induction h with
  | last => simp
  | chunk _ _ _ _ ih => simp; omega

theorem decChunks_loop (D : Decoder K) (hG : Gets V) (hL : LineLaw V 64) {rest : Bytes} : ∀ (fuel : Nat) (r : BufReader σ) (c : ChunkState) (s p d : Bytes),
    0 < r.blockSize → r.readAllMembers = false → r.chunk = some c → c.notChunked = false → V r.stream s → K r p d →
    ((c.allChunksRead = true ∧ s = rest ∧ p = []) ∨ (c.allChunksRead = false ∧ ∃ e, LooseBody e p ∧ s = e ++ rest)) → s.length + 1 < fuel →
    ∃ r', chunkedFillLoop fuel r = (.ok (), r') ∧ DecChunks K V rest r' (r.buff.getD [] ++ d) ∧ (r.buff.getD [] ++ d ≠ [] → r'.noBuff = false) ∧
      (r.buff.getD [] ++ d = [] → V r'.stream rest ∨ r'.noBuff = false) := by
  intro fuel
  induction fuel with
  | zero => intros; omega
  | succ fuel ih =>
    intro r c s p d h1 h2 h3 h4 h5 h6 h7 h8
    have here : DecChunks K V rest r (r.buff.getD [] ++ d) := ⟨h1, h2, c, s, p, d, h3, h4, h5, h6, rfl, h7⟩
    have stop : r.noBuff = false ∨ c.allChunksRead = true → chunkedFillLoop (fuel + 1) r = (.ok (), r) := by
      intro hc
      unfold chunkedFillLoop
      rw [empty_one h2]
      simp only [h3, Option.getD_some]
      rw [if_neg]
      rcases hc with hc | hc <;> simp [hc]
    rcases h7 with ⟨a1, a2, a3⟩ | ⟨a1, e, a2, a3⟩
    · subst a3
      exact ⟨r, stop (.inr a1), here, noBuff_of (D.done h6), fun _ => .inl (by rw [← a2]; exact h5)⟩
    · cases hnb : r.noBuff with
      | false => exact ⟨r, stop (.inl hnb), here, fun _ => hnb, fun _ => .inr hnb⟩
      | true =>
        have hbuf := noBuff_iff.1 hnb
        cases a2 with
        | @last l hl =>
          rw [a3] at h5
          obtain ⟨s', g1, g2⟩ := fillLoop_last hG hL h3 h2 hnb a1 h4 hl h5 fuel
          obtain ⟨f, rfl⟩ : ∃ f, fuel = f + 1 := ⟨fuel - 1, by omega⟩
          rw [g2]
          obtain ⟨r', i1, i2, i3, i4⟩ := ih { r with stream := s', chunk := some { c with allChunksRead := true }, buff := none } _ rest [] d h1 h2 rfl h4 g1 (D.same h6 ⟨rfl, rfl, rfl⟩)
            (.inl ⟨rfl, rfl, rfl⟩) (by rw [a3] at h8; simp at h8 ⊢; omega)
          rw [hbuf]
          exact ⟨r', i1, i2, i3, i4⟩
        | @chunk l n x e p hl hn0 hd hrest =>
          rw [a3, List.append_assoc _ e rest] at h5
          obtain ⟨s', g1, g2⟩ := fillLoop_chunk hG hL h3 h2 hnb a1 h4 hl hn0 hd h5 fuel
          rw [g2]
          have hlen : (e ++ rest).length + 1 < fuel := by
            rw [a3] at h8
            simp only [List.length_append, List.length_cons, List.length_nil] at h8 ⊢
            omega
          have hk : K ({ r with stream := s' } : BufReader σ) (x ++ p) d := D.same h6 ⟨rfl, rfl, rfl⟩
          by_cases hx : x = []
          · subst hx
            rw [processRead_nil]
            obtain ⟨r', i1, i2, i3, i4⟩ := ih { r with stream := s', buff := none } c (e ++ rest) p d h1 h2 h3 h4 g1 (D.same hk ⟨rfl, rfl, rfl⟩) (.inr ⟨a1, e, hrest, rfl⟩) hlen
            rw [hbuf]
            exact ⟨r', i1, i2, i3, i4⟩
          · obtain ⟨o, d', f1, f2, f3, f4, f5⟩ := D.feed hk hx
            obtain ⟨r', i1, i2, i3, i4⟩ := ih _ c (e ++ rest) p d' (by rw [f3.block]; exact h1) (f3.all.trans h2) (f3.chunk.trans h3) h4 (by rw [f3.stream]; exact g1) f4
              (.inr ⟨a1, e, hrest, rfl⟩) hlen
            have hb' : (({ r with stream := s' } : BufReader σ).processRead x).buff.getD [] = o := by rw [f2]; rfl
            rw [hb'] at i2 i3 i4
            rw [hbuf, List.nil_append, f1]
            exact ⟨r', i1, i2, i3, i4⟩

theorem decChunks_fillLaw (D : Decoder K) (hG : Gets V) (hL : LineLaw V 64) (rest : Bytes) : FillLaw (DecChunks K V rest (σ := σ)) where
  pre := by
    rintro r rem ⟨-, -, c, s, p, d, -, -, -, -, h, -⟩
    exact ⟨d, h.symm⟩
  fill := by
    rintro r rem ⟨h1, h2, c, s, p, d, h3, h4, h5, h6, rfl, h7⟩
    have hf : r.fillbuff = chunkedFillLoop (PyStream.bound r.stream + 2) r := by simp [fillbuff, h3, h4]
    rw [hf]
    have := hG.bound h5
    obtain ⟨r', g1, g2, g3, -⟩ := decChunks_loop D hG hL (PyStream.bound r.stream + 2) r c s p d h1 h2 h3 h4 h5 h6 h7 (by omega)
    exact ⟨r', g1, g2, g3⟩
  empty := by
    intro r rem h
    rw [empty_one h.one]; exact h
  take := by
    rintro r rem ⟨h1, h2, c, s, p, d, h3, h4, h5, h6, rfl, h7⟩ k hk
    refine ⟨h1, h2, c, s, p, d, h3, h4, h5, D.same h6 ⟨rfl, rfl, rfl⟩, ?_, h7⟩
    rw [List.drop_append_of_le_length hk]; rfl
  bound := by
    rintro r rem ⟨h1, h2, c, s, p, d, h3, h4, h5, h6, rfl, h7⟩
    have h8 := D.bound h6
    have h9 := hG.bound h5
    have hp : p.length ≤ s.length := by
      rcases h7 with ⟨a1, a2, a3⟩ | ⟨a1, e, a2, a3⟩
      · rw [a3]; simp
      · have := looseBody_len a2
        rw [a3, List.length_append]; omega
    rw [bound_eq, List.length_append]
    refine Nat.add_le_add_left (Nat.le_trans h8 (Nat.mul_le_mul_left _ ?_)) _
    omega

/-! ## An empty stream -/

/-- A reader of a stream in which there is nothing (more). -/
structure Nothing (V : σ → Bytes → Prop) (r : BufReader σ) (rem : Bytes) : Prop where
  block : 0 < r.blockSize
  one : r.readAllMembers = false
  sd : r.startingData.getD [] = []
  stream : V r.stream []
  buff : r.buff.getD [] = []
  quiet : ∀ c, r.chunk = some c → c.raiseExceptions = false
  rem : rem = []

theorem nothing_base (hV : Short V) {r : BufReader σ} (h : Nothing V r []) : ∃ r', r.baseFill = (.ok (), r') ∧ Nothing V r' [] := by
  have hnb : r.noBuff = true := noBuff_iff.2 h.buff
  unfold baseFill
  rw [empty_one h.one, hnb]
  dsimp only
  simp only [Bool.not_true, Bool.false_eq_true, if_false]
  rw [remLength_noBuff hnb]
  by_cases hu : len r.unused > 0
  · rw [if_pos hu]
    exact ⟨r, rfl, h⟩
  rw [if_neg hu]
  obtain ⟨x, p', s', e1, e2, e3, e4, e5⟩ := hV.read h.stream r.blockSize h.block
  obtain ⟨rfl, rfl⟩ := List.append_eq_nil_iff.1 e1.symm
  have hrd : r.nextData = (.ok [], { r with stream := s' }) := by simp [nextData, h.sd, readStream, e4]
  rw [hrd]
  dsimp only
  rw [processRead_nil]
  refine ⟨{ r with stream := s', buff := none }, ?_, h.block, h.one, h.sd, e5, rfl, h.quiet, rfl⟩
  unfold fillLoop
  simp

theorem nothing_fillLaw (hV : Short V) (hE : ∀ {s}, V s [] → ∃ s', PyStream.readline s (some 64) = (.ok [], s') ∧ V s' []) : FillLaw (Nothing V (σ := σ)) where
  pre := by
    intro r rem h
    rw [h.rem, h.buff]
    exact List.prefix_refl _
  fill := by
    intro r rem h
    obtain rfl := h.rem
    obtain ⟨r', k1, k2⟩ := nothing_base hV h
    cases hc : r.chunk with
    | none =>
      have hf : r.fillbuff = r.baseFill := by simp [fillbuff, hc]
      exact ⟨r', by rw [hf, k1], k2, fun h => absurd rfl h⟩
    | some c =>
      cases hn : c.notChunked with
      | true =>
        have hf : r.fillbuff = r.baseFill := by simp [fillbuff, hc, hn]
        exact ⟨r', by rw [hf, k1], k2, fun h => absurd rfl h⟩
      | false =>
        have hnb : r.noBuff = true := noBuff_iff.2 h.buff
        have hf : r.fillbuff = chunkedFillLoop (PyStream.bound r.stream + 2) r := by simp [fillbuff, hc, hn]
        rw [hf]
        unfold chunkedFillLoop
        rw [empty_one h.one]
        simp only [hc, Option.getD_some, hnb, hn, Bool.not_false, Bool.and_true, Bool.true_and]
        cases ha : c.allChunksRead with
        | true =>
          rw [if_neg (by simp)]
          exact ⟨r, rfl, h, fun h => absurd rfl h⟩
        | false =>
          rw [if_pos (by decide)]
          obtain ⟨s', m1, m2⟩ := hE h.stream
          have hrl : r.readlineStream 64 = (.ok [], { r with stream := s' }) := by simp only [readlineStream, m1]
          rw [hrl]
          dsimp only
          have htd : ({ r with stream := s' } : BufReader σ).tryDecode c [] = (.error (.chunkedData []), { r with stream := s' }) := by
            unfold tryDecode
            rw [show chunkSizeOf [] = none by decide]
          rw [htd]
          simp only [h.quiet c hc, Bool.false_eq_true, if_false]
          rw [List.append_nil, processRead_nil]
          refine (nothing_base hV (r := _) ?_).imp fun r2 q => ⟨q.1, q.2, fun h => absurd rfl h⟩
          exact ⟨h.block, h.one, h.sd, m2, rfl, fun c' hc' => by cases hc'; rfl, rfl⟩
  empty := by
    intro r rem h
    rw [empty_one h.one]; exact h
  take := by
    intro r rem h k hk
    have hb := h.buff
    rw [hb] at hk
    have hk0 : k = 0 := by simpa using hk
    subst hk0
    refine ⟨h.block, h.one, h.sd, h.stream, ?_, h.quiet, by rw [h.rem]; rfl⟩
    simpa using hb
  bound := by
    intro r rem h
    rw [h.rem]
    exact Nat.zero_le _

end BufReader
end Warcio
