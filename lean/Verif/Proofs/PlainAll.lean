import Verif.Proofs.CopyParts

/-!
# Reading uncompressed data through a reader of all members

Lemmas for C91: the second attempt of `recompress`.
-/

set_option linter.unusedSectionVars false

namespace Warcio.BufReader

section
variable {σ : Type} [Zlib] [PyStream σ] {V : σ → Bytes → Prop} {IsMember : Bytes → Bytes → Prop}

/-- Before the first read: `FreshAll` is `Fresh`, whether or not all members are to be read. -/
structure FreshAll (V : σ → Bytes → Prop) (r : BufReader σ) (rem : Bytes) : Prop where
  decomp : r.decompressor = some { kind := .gzip, hist := [] }
  dtype : r.decompType = some .gzip
  chunk : r.chunk = none
  block : 0 < r.blockSize
  count : r.numBlockRead = 0
  buff : r.buff.getD [] = []
  sd : r.startingData.getD [] = []
  view : V r.stream rem
  first : ∀ p s', PyStream.read r.stream (some (r.blockSize : Int)) = (.ok p, s') → p ≠ [] → 2 ≤ p.length ∧ ¬ [0x1f, 0x8b] <+: p

theorem empty_fresh (L : LawfulGzip IsMember) {r : BufReader σ} (h : FreshAll V r rem) : r.empty = (r.noBuff, r) := by
  have hn : r.readNextMember = (false, r) := by
    unfold readNextMember
    rw [h.decomp]
    dsimp only
    rw [if_pos]
    simp [Decompressor.unused, L.codec_eq, L.unused_nil]
  unfold BufReader.empty
  cases r.noBuff <;> simp [hn]

theorem freshAll_fill (L : LawfulGzip IsMember) (hV : Short V) {r : BufReader σ} {rem : Bytes} (h : FreshAll V r rem) :
    ∃ r', r.fillbuff = (.ok (), r') ∧ (FreshAll V r' rem ∨ Plain V (fun _ => True) r' rem) ∧ (rem ≠ [] → r'.noBuff = false) := by
  unfold fillbuff
  rw [h.chunk]
  simp only
  unfold baseFill
  rw [empty_fresh L h]
  have hnb : r.noBuff = true := noBuff_iff.2 h.buff
  have hrl : ¬ (0 < r.remLength) := by
    rw [remLength_noBuff hnb, unused_gz L h.decomp, L.unused_nil]; simp [len]
  simp only [hnb, Bool.not_true, Bool.false_eq_true, if_false, hrl]
  obtain ⟨p, rem', s', hp1, _, hp3, hp4, hp5⟩ := hV.read h.view r.blockSize h.block
  by_cases hp : p = []
  · have hrem := hp3 hp
    subst hp
    refine ⟨{ r with stream := s', buff := none }, ?_, Or.inl ?_, fun h => absurd hrem h⟩
    · simp [nextData, h.sd, readStream, hp4, processRead, fillLoop]
    · have hr' : rem' = rem := hp1.symm
      refine ⟨h.decomp, h.dtype, h.chunk, h.block, h.count, rfl, h.sd, hr' ▸ hp5, ?_⟩
      intro q s'' hq hne
      obtain ⟨p2, rem2, s2, e1, _, _, e4, _⟩ := hV.read hp5 r.blockSize h.block
      rw [hr', hrem] at e1
      have : p2 = [] := (List.append_eq_nil_iff.1 e1.symm).1
      have e5 : q = p2 := by
        have := e4.symm.trans hq; simp at this; exact this.1.symm
      exact absurd (e5.trans this) hne
  · obtain ⟨hl, hm⟩ := h.first p s' hp4 hp
    have hpe : p.isEmpty = false := by cases p with
      | nil => simp at hl
      | cons _ _ => rfl
    refine ⟨{ r with stream := s', decompressor := none, numRead := r.numRead + p.length, numBlockRead := r.numBlockRead + p.length, buff := some p }, ?_, Or.inr ?_, ?_⟩
    · simp [nextData, h.sd, readStream, hp4, processRead, hpe, decompress, h.decomp, feed, L.codec_eq,
        L.notGzip hl hm, h.count, h.dtype, fillLoop]
    · exact ⟨rfl, h.chunk, h.block, trivial, h.sd, rem', hp5, by simp [hp1]⟩
    · intro _; simp [noBuff, hpe]

theorem freshAll_fillLaw (L : LawfulGzip IsMember) (hV : Short V) : FillLaw (fun (r : BufReader σ) rem => FreshAll V r rem ∨ Plain V (fun _ => True) r rem) where
  pre := by
    rintro r rem (h | h)
    · rw [h.buff]; exact List.nil_prefix
    · exact (plain_fillLaw hV).pre h
  fill := by
    rintro r rem (h | h)
    · exact freshAll_fill L hV h
    · obtain ⟨r', h1, h2, h3⟩ := plain_fill hV h
      exact ⟨r', h1, Or.inr h2, h3⟩
  empty := by
    rintro r rem (h | h)
    · rw [empty_fresh L h]; exact Or.inl h
    · exact Or.inr ((plain_fillLaw hV).empty h)
  take := by
    rintro r rem (h | h) k hk
    · rw [h.buff] at hk; simp at hk; subst hk
      exact Or.inl ⟨h.decomp, h.dtype, h.chunk, h.block, h.count, by simp [h.buff], h.sd, h.view, h.first⟩
    · exact Or.inr ((plain_fillLaw hV).take h k hk)
  bound := by
    rintro r rem (h | h)
    · have hb := hV.bound h.view
      simp only [BufReader.bound, h.decomp]
      have h3 := Nat.le_mul_of_pos_left (0 + (r.startingData.getD []).length + PyStream.bound r.stream)
        (Nat.succ_pos Zlib.ratio)
      simp only [List.flatten_nil, List.length_nil]
      simp only [Nat.succ_eq_add_one] at h3
      omega
    · exact (plain_fillLaw hV).bound h

end

/-- Reading block by block to the end. -/
theorem readBlocks_to_end {τ : Type} [PyStream τ] {W : τ → Bytes → Prop} (hW : ExactRead W) {n : Nat} (hn : 0 < n) : ∀ (fuel : Nat) {r : τ} {rem : Bytes}, W r rem → rem.length < fuel →
    ∃ bufs r', readBlocks (n : Int) fuel r = (bufs, .ok (), r') ∧ bufs.flatten = rem
  | 0, _, _, _, h => by omega
  | fuel + 1, r, rem, h, hf => by
    obtain ⟨r1, h1, h2⟩ := hW.read_some h n
    unfold readBlocks
    rw [h1]
    dsimp only
    by_cases h0 : rem = []
    · subst h0
      exact ⟨[], r1, by simp, rfl⟩
    · have hpos := List.length_pos_iff.2 h0
      rw [if_neg (by cases rem with | nil => exact absurd rfl h0 | cons a t => obtain ⟨k, rfl⟩ : ∃ k, n = k + 1 := ⟨n - 1, by omega⟩; simp)]
      obtain ⟨bufs, r', k1, k2⟩ := readBlocks_to_end hW hn fuel h2 (by rw [List.length_drop]; omega)
      refine ⟨rem.take n :: bufs, r', ?_, by rw [List.flatten_cons, k2, List.take_append_drop]⟩
      rw [k1]

/-- The second attempt of `recompress` on uncompressed data reads it as it is. -/
theorem _root_.Warcio.Recompressor.decompress_plain [Zlib] [Hashlib] [PyUni] [Deflater] {IsMember : Bytes → Bytes → Prop} (L : LawfulGzip IsMember) (c : BuilderCfg) (ids : Nat → Str) {f : FileObj} (hs : f.seekable = true) {again : List Nat}
    (hc : ∀ k, again.head? = some k → 2 ≤ k) (h2 : f.content ≠ [] → 2 ≤ f.content.length) (hm : ¬ [0x1f, 0x8b] <+: f.content) :
    Recompressor.decompressAndRecompress c ids f again = Recompressor.loadAndWrite c ids { content := f.content } := by
  unfold Recompressor.decompressAndRecompress
  simp only [BufReader.new, L.codec_eq]
  have hseek : f.seek 0 = .ok { f with pos := 0 } := by unfold FileObj.seek; rw [if_pos hs]
  rw [hseek]
  dsimp only
  have hr : ({ f with pos := 0, caps := again } : FileObj).rest = f.content := by simp [FileObj.rest]
  have hfirst := FileObj.first_read (f := { f with pos := 0, caps := again }) (bs := 16384) (by decide) hc (by rw [hr]; exact h2) (by rw [hr]; exact hm)
  have hfr : FreshAll FileObj.View ({ stream := { f with pos := 0, caps := again }, blockSize := 16384, decompType := some .gzip, decompressor := some { kind := .gzip }, readAllMembers := true } : BufReader FileObj) f.content :=
    ⟨rfl, rfl, rfl, by show 0 < 16384; decide, rfl, rfl, rfl, hr, hfirst⟩
  have hW := BufReader.exactRead (freshAll_fillLaw L FileObj.shortRead.short)
  have hb := hW.bound (Or.inl hfr)
  obtain ⟨bufs, r', k1, k2⟩ := readBlocks_to_end hW (n := 65536) (by decide) (PyStream.bound ({ stream := { f with pos := 0, caps := again }, blockSize := 16384, decompType := some .gzip, decompressor := some { kind := .gzip }, readAllMembers := true } : BufReader FileObj) + 2) (Or.inl hfr) (by omega)
  unfold readAllBlocks
  have k1' := k1
  rw [show ((65536 : Nat) : Int) = 65536 from rfl] at k1'
  rw [k1']
  dsimp only
  rw [k2]

end Warcio.BufReader
