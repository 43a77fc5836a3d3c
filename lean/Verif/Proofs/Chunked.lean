import Verif.Proofs.Exact
import Verif.Spec.Chunked

/-! # Chunked readers -/

namespace Warcio

set_option linter.unusedSectionVars false

theorem hexVal_eq (b : UInt8) : hexVal b = hexDigit? b := by
  unfold hexVal hexDigit?
  simp only
  by_cases h1 : 48 ≤ b.toNat ∧ b.toNat ≤ 57
  · rw [if_pos h1, if_pos h1]
  · rw [if_neg h1, if_neg h1]
    by_cases h2 : 97 ≤ b.toNat ∧ b.toNat ≤ 102
    · rw [if_pos h2, if_neg (by omega), if_pos h2]
    · rw [if_neg h2, if_neg h2]

theorem digitsLoop_cons {α} {digit : α → Option Nat} {under : α → Bool} {base : Nat} {prev : Bool} {acc : Nat} {c : α}
    {cs : List α} {d : Nat} (h : digit c = some d) :
    digitsLoop digit under base prev acc (c :: cs) = digitsLoop digit under base true (acc * base + d) cs := by
  rw [digitsLoop.eq_def]
  simp only [h]

theorem split1_of_mem {α} [DecidableEq α] {c : α} : ∀ {s t : List α}, c ∉ s → split1 c (s ++ c :: t) = (s, some t)
  | [], t, _ => by simp [split1]
  | x :: xs, t, h => by
    simp only [List.mem_cons, not_or] at h
    simp only [List.cons_append, split1]
    rw [if_neg (fun e => h.1 e.symm), split1_of_mem h.2]

theorem split1_of_not_mem {α} [DecidableEq α] {c : α} : ∀ {s : List α}, c ∉ s → split1 c s = (s, none)
  | [], _ => by simp [split1]
  | x :: xs, h => by
    simp only [List.mem_cons, not_or] at h
    simp only [split1]
    rw [if_neg (fun e => h.1 e.symm), split1_of_not_mem h.2]

theorem HexNum.digits {s : Bytes} {n : Nat} (h : HexNum s n) : s ≠ [] ∧ ∀ b ∈ s, (hexDigit? b).isSome := by
  induction h with
  | one h => simp [h]
  | snoc _ h ih =>
    refine ⟨by simp, ?_⟩
    intro b hb
    simp only [List.mem_append, List.mem_singleton] at hb
    rcases hb with hb | rfl
    · exact ih.2 b hb
    · simp [h]

theorem digitsLoop_snoc : ∀ (s : Bytes) (p : Bool) (acc n : Nat) (b : UInt8) (d : Nat),
    (∀ b ∈ s, (hexDigit? b).isSome) → digitsLoop hexVal (· == 95) 16 p acc s = some n → hexVal b = some d →
    digitsLoop hexVal (· == 95) 16 p acc (s ++ [b]) = some (n * 16 + d) := by
  intro s
  induction s with
  | nil =>
    intro p acc n b d _ h hb
    simp only [digitsLoop] at h
    split at h
    · cases h; simp [digitsLoop, hb]
    · cases h
  | cons x xs ih =>
    intro p acc n b d hs h hb
    have hx := hs x (by simp)
    rw [← hexVal_eq] at hx
    obtain ⟨v, hv⟩ := Option.isSome_iff_exists.1 hx
    rw [digitsLoop_cons hv] at h
    rw [List.cons_append, digitsLoop_cons hv]
    exact ih _ _ _ _ _ (fun c hc => hs c (by simp [hc])) h hb

theorem HexNum.loop {s : Bytes} {n : Nat} (h : HexNum s n) : digitsLoop hexVal (· == 95) 16 false 0 s = some n := by
  induction h with
  | one h => rw [← hexVal_eq] at h; simp [digitsLoop, h]
  | snoc h1 h2 ih =>
    rw [← hexVal_eq] at h2
    rw [digitsLoop_snoc _ _ _ _ _ _ h1.digits.2 ih h2, Nat.mul_comm]

theorem dropWhile_id {α} {p : α → Bool} : ∀ {s : List α}, (∀ x ∈ s, p x = false) → s.dropWhile p = s
  | [], _ => rfl
  | x :: xs, h => by simp [List.dropWhile, h x (by simp)]

theorem rdropWhile_id {α} {p : α → Bool} {s : List α} (h : ∀ x ∈ s, p x = false) : rdropWhile p s = s := by
  unfold rdropWhile
  rw [dropWhile_id (by simpa using h)]; simp

theorem hexDigit_props {b : UInt8} (h : (hexDigit? b).isSome) :
    isByteSpace b = false ∧ b ≠ 45 ∧ b ≠ 43 ∧ b ≠ 120 ∧ b ≠ 88 ∧ b ≠ 59 ∧ b ≠ 10 ∧ b ≠ 13 := by
  have : (48 ≤ b.toNat ∧ b.toNat ≤ 57) ∨ (65 ≤ b.toNat ∧ b.toNat ≤ 70) ∨ (97 ≤ b.toNat ∧ b.toNat ≤ 102) := by
    unfold hexDigit? at h
    split at h
    · left; assumption
    · split at h
      · right; left; assumption
      · split at h
        · right; right; assumption
        · simp at h
  refine ⟨?_, ?_, ?_, ?_, ?_, ?_, ?_, ?_⟩
  · simp only [isByteSpace]
    simp only [Bool.or_eq_false_iff, Bool.and_eq_false_iff, decide_eq_false_iff_not, beq_eq_false_iff_ne]
    constructor
    · by_cases h9 : 9 ≤ b.toNat
      · right; omega
      · left; exact h9
    · omega
  all_goals (rintro rfl; simp at this)

theorem HexNum.parse {s : Bytes} {n : Nat} (h : HexNum s n) : parseHexBytes s = some (n : Int) := by
  have hd := h.digits
  have hp : ∀ b ∈ s, _ := fun b hb => hexDigit_props (hd.2 b hb)
  unfold parseHexBytes
  simp only
  rw [dropWhile_id (fun b hb => (hp b hb).1), rdropWhile_id (fun b hb => (hp b hb).1)]
  match s, hd.1 with
  | x :: xs, _ =>
    have hx := hp x (by simp)
    split
    · rename_i heq; simp only [List.cons.injEq] at heq; exact absurd heq.1 hx.2.1
    · rename_i heq; simp only [List.cons.injEq] at heq; exact absurd heq.1 hx.2.2.1
    · have : dropHexPrefix (x :: xs) = x :: xs := by
        unfold dropHexPrefix
        split
        · rename_i y t heq
          simp only [List.cons.injEq] at heq
          have hy := hp y (by rw [heq.2]; simp)
          rw [if_neg (fun h => h.elim hy.2.2.2.1 hy.2.2.2.2.1)]
          rw [heq.1, heq.2]
        · rfl
      rw [this, h.loop]; rfl

theorem SizeLine.loose {l : Bytes} {n : Nat} (h : SizeLine l n) : LooseLine l n := by
  cases h with
  | plain h hl hn =>
    have hp : ∀ b ∈ l, _ := fun b hb => hexDigit_props (h.digits.2 b hb)
    refine ⟨fun h10 => (hp 10 h10).2.2.2.2.2.2.1 rfl, hl, ?_, by omega⟩
    rw [split1_of_not_mem (fun h59 => (hp 59 h59).2.2.2.2.2.1 rfl)]
    exact h.parse
  | @ext s n x h hx hl hn =>
    have hp : ∀ b ∈ s, _ := fun b hb => hexDigit_props (h.digits.2 b hb)
    refine ⟨?_, hl, ?_, by omega⟩
    · simp only [List.mem_append, List.mem_cons, not_or]
      exact ⟨fun h10 => (hp 10 h10).2.2.2.2.2.2.1 rfl, by decide, hx⟩
    · rw [split1_of_mem (fun h59 => (hp 59 h59).2.2.2.2.2.1 rfl)]
      exact h.parse

theorem ChunkedBody.loose {e p : Bytes} (h : ChunkedBody e p) : LooseBody e p := by
  induction h with
  | last h => exact .last h.loose
  | chunk h hd _ ih =>
    refine .chunk h.loose ?_ rfl ih
    have := List.length_pos_iff.2 hd; omega

theorem takeLine_prefix (b : Bytes) : takeLine b <+: b := ⟨_, takeLine_append_dropLine b⟩

theorem takeLine_dropLast (b : Bytes) : (10 : UInt8) ∉ (takeLine b).dropLast := by
  induction b with
  | nil => simp [takeLine]
  | cons x xs ih =>
    simp only [takeLine]
    split
    · simp
    · rename_i h
      cases hx : takeLine xs with
      | nil => simp
      | cons y ys =>
        rw [hx] at ih
        rw [List.dropLast_cons_cons, List.mem_cons, not_or]
        exact ⟨fun e => h e.symm, ih⟩

theorem takeLine_of_no_lf {l t : Bytes} (h : (10 : UInt8) ∉ l) : takeLine (l ++ 10 :: t) = l ++ [10] := by
  rw [takeLine_append, if_neg h]; simp [takeLine]

/-- The header that `readline(64)` returns for a size line. -/
theorem header_of_line {l t : Bytes} (h : (10 : UInt8) ∉ l) (hl : l.length ≤ 62) :
    (takeLine (l ++ crlf ++ t)).take 64 = l ++ crlf := by
  have : l ++ crlf ++ t = (l ++ [13]) ++ 10 :: t := by simp
  rw [this, takeLine_of_no_lf (by simpa using h)]
  rw [List.take_of_length_le (by simp; omega)]; simp

theorem chunkSizeOf_line {l : Bytes} {n : Int} (h : LooseLine l n) : BufReader.chunkSizeOf (l ++ crlf) = some n := by
  unfold BufReader.chunkSizeOf
  have h1 : (l ++ crlf).length - 2 = l.length := by simp
  rw [h1]
  simp only [List.drop_left, if_true, List.take_left, h.2.2.1, h.2.2.2]

/-- Conversely a header with a chunk size comes from a size line. -/
theorem line_of_chunkSizeOf {s : Bytes} {n : Int} (h : BufReader.chunkSizeOf ((takeLine s).take 64) = some n) :
    ∃ l t, s = l ++ crlf ++ t ∧ LooseLine l n ∧ (takeLine s).take 64 = l ++ crlf := by
  generalize hh : (takeLine s).take 64 = hdr at h
  unfold BufReader.chunkSizeOf at h
  split at h
  · rename_i hcr
    have hsp : hdr = hdr.take (hdr.length - 2) ++ crlf := by rw [← hcr, List.take_append_drop]
    generalize hdr.take (hdr.length - 2) = l at hsp h
    have hpre : hdr <+: s := by
      rw [← hh]
      exact (List.take_prefix _ _).trans (takeLine_prefix s)
    have hlen : hdr.length ≤ 64 := by rw [← hh, List.length_take]; omega
    obtain ⟨t, ht⟩ := hpre
    refine ⟨l, t, by rw [← hsp, ht], ⟨?_, ?_, ?_, ?_⟩, hsp⟩
    · intro h10
      obtain ⟨a, b, hab⟩ := List.append_of_mem h10
      -- a newline before the end contradicts `takeLine`
      have h2 : (10 : UInt8) ∈ hdr.dropLast := by
        rw [hsp, hab]
        have : a ++ 10 :: b ++ crlf = (a ++ 10 :: b ++ [13]) ++ [10] := by simp
        rw [this, List.dropLast_concat]; simp
      have h4 := takeLine_dropLast s
      apply h4
      rw [← hh] at h2
      by_cases hl : (takeLine s).length ≤ 64
      · rw [List.take_of_length_le hl] at h2; exact h2
      · have : (takeLine s).take 64 <+: (takeLine s).dropLast := by
          rw [List.dropLast_eq_take]
          exact List.take_prefix_take_left (by omega)
        exact this.subset ((List.dropLast_subset _) h2)
    · rw [hsp] at hlen; simp at hlen; omega
    · split at h
      · rename_i m hm; split at h
        · cases h; exact hm
        · cases h
      · cases h
    · split at h
      · split at h
        · rename_i h5; cases h; exact h5
        · cases h
      · cases h
  · cases h

namespace BufReader

variable {σ : Type} [Zlib] [PyStream σ] {V : σ → Bytes → Prop}

/-- A reader without decompression, with chunk state `c`. -/
structure CBase (r : BufReader σ) (c : ChunkState) : Prop where
  decomp : r.decompressor = none
  chunk : r.chunk = some c
  block : 0 < r.blockSize
  sd : r.startingData.getD [] = []

theorem processRead_cbase {r : BufReader σ} {c : ChunkState} (h : CBase r c) (data : Bytes) :
    CBase (r.processRead data) c ∧ (r.processRead data).stream = r.stream ∧
    (r.processRead data).buff.getD [] = data ∧ (r.processRead data).blockSize = r.blockSize := by
  obtain ⟨h1, h2, h3, h4, h5, h6⟩ := processRead_plain h.decomp data
  exact ⟨⟨h1, by rw [h2, h.chunk], by rw [h3]; exact h.block, by rw [h5]; exact h.sd⟩, h4, h6, h3⟩

theorem baseFill_cbase (hF : FullRead V) {r : BufReader σ} {c : ChunkState} (h : CBase r c) {srem : Bytes}
    (hs : V r.stream srem) :
    ∃ r' srem', r.baseFill = (.ok (), r') ∧ CBase r' c ∧ V r'.stream srem' ∧
      r.buff.getD [] ++ srem = r'.buff.getD [] ++ srem' ∧ (r'.noBuff = true → r.buff.getD [] ++ srem = []) := by
  unfold baseFill
  rw [empty_noDecomp h.decomp]
  simp only
  cases hb : r.noBuff with
  | false => exact ⟨r, srem, by simp, h, hs, rfl, fun h => by rw [hb] at h; cases h⟩
  | true =>
    have hbuf := noBuff_iff.1 hb
    have hrl : ¬ (0 < r.remLength) := by
      rw [remLength_noBuff hb]; simp [BufReader.unused, h.decomp, len]
    simp only [Bool.not_true, Bool.false_eq_true, if_false, hrl]
    obtain ⟨s', g1, g2⟩ := hF hs r.blockSize h.block
    have hnd : r.nextData = (.ok (srem.take r.blockSize), { r with stream := s' }) := by
      simp [nextData, h.sd, readStream, g1]
    rw [hnd]
    simp only
    obtain ⟨p1, p2, p3, p4⟩ := processRead_cbase (r := { r with stream := s' }) (c := c) ⟨h.decomp, h.chunk, h.block, h.sd⟩
      (srem.take r.blockSize)
    rw [fillLoop_noDecomp p1.decomp]
    refine ⟨_, srem.drop r.blockSize, rfl, p1, by rw [p2]; exact g2, by rw [p3, hbuf, List.take_append_drop]; rfl, ?_⟩
    intro hnb
    have hb0 := noBuff_iff.1 hnb
    rw [p3, List.take_eq_nil_iff] at hb0
    rw [hbuf, List.nil_append]
    rcases hb0 with h0 | h0
    · have := h.block; omega
    · exact h0

theorem chunkLoop_full (hE : Gets V) (raiseExc : Bool) {fuel : Nat} {n : Int} {r : BufReader σ} {srem : Bytes}
    (hs : V r.stream srem) (hf : 2 ≤ fuel) (hn : n ≤ len srem) :
    ∃ s', chunkLoop raiseExc fuel n [] r = (.ok (srem.take n.toNat, false), { r with stream := s' }) ∧
      V s' (srem.drop n.toNat) := by
  obtain ⟨f, rfl⟩ : ∃ f, fuel = f + 2 := ⟨fuel - 2, by omega⟩
  unfold chunkLoop
  by_cases h0 : 0 < n
  · have hc : len ([] : Bytes) < n := by simpa [len] using h0
    rw [if_pos hc]
    obtain ⟨s', g1, g2⟩ := hE.read_some hs n.toNat
    have hi : ((n.toNat : Nat) : Int) = n := Int.toNat_of_nonneg (by omega)
    rw [hi] at g1
    have hr : r.readStream (n - len ([] : Bytes)) = (.ok (srem.take n.toNat), { r with stream := s' }) := by
      simp [readStream, len, g1]
    rw [hr]
    have hlen : (srem.take n.toNat).length = n.toNat := by simp [len] at hn ⊢; omega
    have hne : (srem.take n.toNat).isEmpty = false := by
      cases hh : srem.take n.toNat with
      | nil => rw [hh] at hlen; simp at hlen; omega
      | cons _ _ => rfl
    simp only [hne, Bool.false_eq_true, if_false, List.nil_append]
    unfold chunkLoop
    rw [if_neg (by simp only [len, hlen]; omega)]
    exact ⟨s', rfl, g2⟩
  · rw [if_neg (by simp [len]; omega)]
    have : n.toNat = 0 := by omega
    rw [this]
    exact ⟨r.stream, rfl, hs⟩

theorem chunkLoop_short (hE : ExactRead V) (raiseExc : Bool) {fuel : Nat} {n : Int} {r : BufReader σ} {srem : Bytes}
    (hs : V r.stream srem) (hf : srem.length + 2 ≤ fuel) (hn : len srem < n) :
    ∃ s', chunkLoop raiseExc fuel n [] r = (if raiseExc then .error (.chunkedData srem) else .ok (srem, true), { r with stream := s' }) ∧
      V s' [] := by
  -- reading at the end of the stream
  have fin : ∀ (f : Nat) (r : BufReader σ) (d : Bytes), V r.stream [] → len d < n →
      ∃ s', chunkLoop raiseExc (f + 1) n d r = (if raiseExc then .error (.chunkedData d) else .ok (d, true), { r with stream := s' }) ∧ V s' [] := by
    intro f r d hs hd
    unfold chunkLoop
    rw [if_pos hd]
    obtain ⟨s', g1, g2⟩ := hE.read_some hs (n - len d).toNat
    rw [Int.toNat_of_nonneg (by omega)] at g1
    simp only [readStream, g1, List.take_nil, List.isEmpty_nil, if_true]
    refine ⟨s', ?_, by simpa using g2⟩
    split <;> rfl
  obtain ⟨f, rfl⟩ : ∃ f, fuel = f + 2 := ⟨fuel - 2, by omega⟩
  cases srem with
  | nil => exact fin (f + 1) r [] hs hn
  | cons x xs =>
    unfold chunkLoop
    have h0 : len ([] : Bytes) < n := by simp only [len, List.length_cons, List.length_nil] at hn ⊢; omega
    rw [if_pos h0]
    obtain ⟨s', g1, g2⟩ := hE.read_some hs n.toNat
    have hi : ((n.toNat : Nat) : Int) = n := Int.toNat_of_nonneg (by simp only [len, List.length_nil] at h0; omega)
    have hle : (x :: xs).length ≤ n.toNat := by simp only [len] at hn; omega
    rw [hi, List.take_of_length_le hle] at g1
    rw [List.drop_of_length_le hle] at g2
    have hr : r.readStream (n - len ([] : Bytes)) = (.ok (x :: xs), { r with stream := s' }) := by
      simp [readStream, len, g1]
    rw [hr]
    simp only [List.isEmpty_cons, Bool.false_eq_true, if_false, List.nil_append]
    exact fin f { r with stream := s' } (x :: xs) g2 hn

/-- What one round does on the data `s` of the stream: the result of `_try_decode`, the data
put in the buffer, and what is left of the stream. -/
inductive StepRes
  | bad (d left : Bytes)
  | fin (left : Bytes)
  | cut (d : Bytes)
  | data (d left : Bytes)

/-- The effect of one round on the stream's data (bufferedreaders.py:322-376). -/
def stepRes (raiseExc : Bool) (s : Bytes) : StepRes :=
  let h := (takeLine s).take 64
  let t := s.drop h.length
  match chunkSizeOf h with
  | none => .bad [] t
  | some n =>
    if n = 0 then
      if t.take 2 = crlf then .fin (t.drop 2) else .bad [] (t.drop 2)
    else if len t < n then
      if raiseExc then .bad t [] else .cut t
    else if (t.drop n.toNat).take 2 = crlf then .data (t.take n.toNat) ((t.drop n.toNat).drop 2)
    else .bad (t.take n.toNat) ((t.drop n.toNat).drop 2)

/-- The reader after a round. -/
def StepOk (V : σ → Bytes → Prop) (r : BufReader σ) (c : ChunkState) (x : Except PyErr Unit × BufReader σ) : StepRes → Prop
  | .bad d left => ∃ s', x = (.error (.chunkedData d), { r with stream := s' }) ∧ V s' left
  | .fin left => x.1 = .ok () ∧ CBase x.2 { c with allChunksRead := true } ∧ V x.2.stream left ∧ x.2.buff.getD [] = []
  | .cut d => x.1 = .ok () ∧ CBase x.2 { c with allChunksRead := true } ∧ V x.2.stream [] ∧ x.2.buff.getD [] = d
  | .data d left => x.1 = .ok () ∧ CBase x.2 c ∧ V x.2.stream left ∧ x.2.buff.getD [] = d

theorem tryDecode_spec (hE : ExactRead V) {r : BufReader σ} {c : ChunkState} (h : CBase r c) {s : Bytes}
    (hs : V r.stream (s.drop ((takeLine s).take 64).length)) :
    StepOk V r c (r.tryDecode c ((takeLine s).take 64)) (stepRes c.raiseExceptions s) := by
  unfold stepRes tryDecode
  simp only
  generalize (takeLine s).take 64 = hdr at hs ⊢
  generalize ht : s.drop hdr.length = t at hs ⊢
  cases hc : chunkSizeOf hdr with
  | none => exact ⟨r.stream, rfl, hs⟩
  | some n =>
    simp only
    by_cases hn0 : n = 0
    · rw [if_pos hn0, if_pos hn0]
      obtain ⟨s', g1, g2⟩ := hE.read_some hs 2
      have hr : r.readStream 2 = (.ok (t.take 2), { r with stream := s' }) := by
        simp only [readStream]
        have : ((2 : Nat) : Int) = 2 := rfl
        rw [← this, g1]
      rw [hr]
      simp only
      by_cases hcr : t.take 2 = crlf
      · rw [if_pos hcr, if_pos hcr]
        have hb : CBase ({ r with stream := s', chunk := some { c with allChunksRead := true } } : BufReader σ) { c with allChunksRead := true } :=
          ⟨h.decomp, rfl, h.block, h.sd⟩
        obtain ⟨p1, p2, p3, _⟩ := processRead_cbase hb []
        exact ⟨rfl, p1, by rw [p2]; exact g2, p3⟩
      · rw [if_neg hcr, if_neg hcr]
        exact ⟨s', rfl, g2⟩
    · rw [if_neg hn0, if_neg hn0]
      have hbd := hE.bound hs
      by_cases hlt : len t < n
      · rw [if_pos hlt]
        obtain ⟨s', g1, g2⟩ := chunkLoop_short hE c.raiseExceptions (fuel := PyStream.bound r.stream + 2) hs (by omega) hlt
        rw [g1]
        cases hre : c.raiseExceptions with
        | true => exact ⟨s', rfl, g2⟩
        | false =>
          simp only [Bool.false_eq_true, if_false, if_true]
          have hb : CBase ({ r with stream := s', chunk := some { c with allChunksRead := true } } : BufReader σ) { c with allChunksRead := true } :=
            ⟨h.decomp, rfl, h.block, h.sd⟩
          obtain ⟨p1, p2, p3, _⟩ := processRead_cbase hb t
          rw [hre] at p1 p2 p3
          exact ⟨rfl, by rw [hre]; exact p1, by rw [p2]; exact g2, p3⟩
      · rw [if_neg hlt]
        obtain ⟨s', g1, g2⟩ := chunkLoop_full hE.gets c.raiseExceptions (fuel := PyStream.bound r.stream + 2) hs (by omega) (Int.not_lt.1 hlt)
        rw [g1]
        simp only [Bool.false_eq_true, if_false]
        obtain ⟨s'', k1, k2⟩ := hE.read_some g2 2
        have hr : ({ r with stream := s' } : BufReader σ).readStream 2 = (.ok ((t.drop n.toNat).take 2), { r with stream := s'' }) := by
          simp only [readStream]
          have : ((2 : Nat) : Int) = 2 := rfl
          rw [← this, k1]
        rw [hr]
        simp only
        by_cases hcr : (t.drop n.toNat).take 2 = crlf
        · rw [if_pos hcr, if_pos hcr]
          have hb : CBase ({ r with stream := s'' } : BufReader σ) c := ⟨h.decomp, h.chunk, h.block, h.sd⟩
          obtain ⟨p1, p2, p3, _⟩ := processRead_cbase hb (t.take n.toNat)
          exact ⟨rfl, p1, by rw [p2]; exact k2, p3⟩
        · rw [if_neg hcr, if_neg hcr]
          exact ⟨s'', rfl, k2⟩

end BufReader
end Warcio
