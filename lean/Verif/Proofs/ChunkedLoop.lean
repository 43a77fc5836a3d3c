import Verif.Proofs.Chunked

/-! # The chunk loop on all data -/

namespace Warcio
namespace BufReader

set_option linter.unusedSectionVars false

variable {σ : Type} [Zlib] [PyStream σ] {V : σ → Bytes → Prop}

/-- What follows a failed round. -/
def afterBad (r : BufReader σ) (c : ChunkState) (hdr d : Bytes) : Except PyErr Unit × BufReader σ :=
  if c.raiseExceptions then (.error (.chunkedData d), r)
  else ({ r.processRead (hdr ++ d) with chunk := some { c with notChunked := true } } : BufReader σ).baseFill

theorem chunkedFillLoop_stop {r : BufReader σ} {c : ChunkState} (h : CBase r c) (fuel : Nat)
    (hc : r.noBuff = false ∨ c.allChunksRead = true) : chunkedFillLoop (fuel + 1) r = (.ok (), r) := by
  unfold chunkedFillLoop
  rw [empty_noDecomp h.decomp]
  simp only [h.chunk, Option.getD_some]
  rw [if_neg]
  rcases hc with hc | hc <;> simp [hc]

theorem chunkedFillLoop_step (hE : ExactRead V) (hL : ExactLine V) {r : BufReader σ} {c : ChunkState} (h : CBase r c)
    {s : Bytes} (hs : V r.stream s) (fuel : Nat) (hnb : r.noBuff = true) (ha : c.allChunksRead = false)
    (hn : c.notChunked = false) :
    match stepRes c.raiseExceptions s with
    | .bad d left => ∃ s', V s' left ∧
        chunkedFillLoop (fuel + 1) r = afterBad { r with stream := s' } c ((takeLine s).take 64) d
    | .fin left => ∃ r', chunkedFillLoop (fuel + 1) r = chunkedFillLoop fuel r' ∧
        CBase r' { c with allChunksRead := true } ∧ V r'.stream left ∧ r'.buff.getD [] = []
    | .cut d => ∃ r', chunkedFillLoop (fuel + 1) r = chunkedFillLoop fuel r' ∧
        CBase r' { c with allChunksRead := true } ∧ V r'.stream [] ∧ r'.buff.getD [] = d
    | .data d left => ∃ r', chunkedFillLoop (fuel + 1) r = chunkedFillLoop fuel r' ∧
        CBase r' c ∧ V r'.stream left ∧ r'.buff.getD [] = d := by
  obtain ⟨s1, l1, l2⟩ := hL hs 64
  have hrl : r.readlineStream 64 = (.ok ((takeLine s).take 64), { r with stream := s1 }) := by
    simp only [readlineStream]
    have : ((64 : Nat) : Int) = 64 := rfl
    rw [← this, l1]
  have h1 : CBase ({ r with stream := s1 } : BufReader σ) c := ⟨h.decomp, h.chunk, h.block, h.sd⟩
  have hst := tryDecode_spec hE h1 (s := s) l2
  have hbody : chunkedFillLoop (fuel + 1) r =
      (match ({ r with stream := s1 } : BufReader σ).tryDecode c ((takeLine s).take 64) with
        | (.ok _, r) => chunkedFillLoop fuel r
        | (.error (.chunkedData d), r) => afterBad r c ((takeLine s).take 64) d
        | (.error e, r) => (.error e, r)) := by
    conv => lhs; unfold chunkedFillLoop
    rw [empty_noDecomp h.decomp]
    simp only [h.chunk, Option.getD_some, hnb, ha, hn, Bool.not_false, Bool.and_true, if_true, hrl]
    rw [← h.chunk]
    generalize (tryDecode ({ r with stream := s1 } : BufReader σ) c ((takeLine s).take 64)) = x
    obtain ⟨x1, x2⟩ := x
    cases x1 with
    | ok u => rfl
    | error e => cases e <;> simp [afterBad, ha]
  rw [hbody]
  cases hres : stepRes c.raiseExceptions s with
  | bad d left =>
    rw [hres] at hst
    obtain ⟨s', e1, e2⟩ := hst
    rw [e1]
    exact ⟨s', e2, rfl⟩
  | fin left =>
    rw [hres] at hst
    generalize ({ r with stream := s1 } : BufReader σ).tryDecode c ((takeLine s).take 64) = x at hst
    obtain ⟨x1, x2⟩ := x
    obtain ⟨e1, e2⟩ := hst
    simp only at e1; subst e1
    exact ⟨x2, rfl, e2⟩
  | cut d =>
    rw [hres] at hst
    generalize ({ r with stream := s1 } : BufReader σ).tryDecode c ((takeLine s).take 64) = x at hst
    obtain ⟨x1, x2⟩ := x
    obtain ⟨e1, e2⟩ := hst
    simp only at e1; subst e1
    exact ⟨x2, rfl, e2⟩
  | data d left =>
    rw [hres] at hst
    generalize ({ r with stream := s1 } : BufReader σ).tryDecode c ((takeLine s).take 64) = x at hst
    obtain ⟨x1, x2⟩ := x
    obtain ⟨e1, e2⟩ := hst
    simp only at e1; subst e1
    exact ⟨x2, rfl, e2⟩

/-! ## Stepping through data of known form -/

theorem stepRes_line {b : Bool} {l t : Bytes} {n : Int} (h : LooseLine l n) :
    stepRes b (l ++ crlf ++ t) =
      if n = 0 then
        if t.take 2 = crlf then .fin (t.drop 2) else .bad [] (t.drop 2)
      else if len t < n then
        if b then .bad t [] else .cut t
      else if (t.drop n.toNat).take 2 = crlf then .data (t.take n.toNat) ((t.drop n.toNat).drop 2)
      else .bad (t.take n.toNat) ((t.drop n.toNat).drop 2) := by
  unfold stepRes
  simp only
  rw [header_of_line h.1 h.2.1, chunkSizeOf_line h, List.drop_left]

theorem stepRes_last {b : Bool} {l rest : Bytes} (h : LooseLine l 0) :
    stepRes b (l ++ crlf ++ crlf ++ rest) = .fin rest := by
  rw [List.append_assoc (l ++ crlf), stepRes_line h]
  simp

theorem stepRes_chunk {b : Bool} {l d t : Bytes} {n : Int} (h : LooseLine l n) (hn : n ≠ 0) (hd : d.length = n.toNat) :
    stepRes b (l ++ crlf ++ d ++ crlf ++ t) = .data d t := by
  have : l ++ crlf ++ d ++ crlf ++ t = l ++ crlf ++ (d ++ (crlf ++ t)) := by simp
  rw [this, stepRes_line h, if_neg hn, if_neg (by simp [len]; omega)]
  rw [← hd, List.drop_left, List.take_left]
  simp

theorem stepRes_data {b : Bool} {s d left : Bytes} (h : stepRes b s = .data d left) :
    ∃ l n, s = l ++ crlf ++ d ++ crlf ++ left ∧ LooseLine l n ∧ n ≠ 0 ∧ d.length = n.toNat := by
  unfold stepRes at h
  simp only at h
  cases hc : chunkSizeOf ((takeLine s).take 64) with
  | none => rw [hc] at h; simp at h
  | some n =>
    obtain ⟨l, t, hs, hl, hh⟩ := line_of_chunkSizeOf hc
    rw [hh] at hc
    rw [hh, hc] at h
    simp only at h
    rw [hs, List.drop_left] at h
    by_cases hn : n = 0
    · rw [if_pos hn] at h; split at h <;> cases h
    · rw [if_neg hn] at h
      by_cases hlt : len t < n
      · rw [if_pos hlt] at h; split at h <;> cases h
      · rw [if_neg hlt] at h
        split at h
        · rename_i hcr
          cases h
          refine ⟨l, n, ?_, hl, hn, ?_⟩
          · rw [hs]
            conv => lhs; rw [← List.take_append_drop n.toNat t, ← List.take_append_drop 2 (t.drop n.toNat), hcr]
            simp
          · simp [len] at hlt ⊢; omega
        · cases h

theorem stepRes_fin {b : Bool} {s left : Bytes} (h : stepRes b s = .fin left) :
    ∃ l, s = l ++ crlf ++ crlf ++ left ∧ LooseLine l 0 := by
  unfold stepRes at h
  simp only at h
  cases hc : chunkSizeOf ((takeLine s).take 64) with
  | none => rw [hc] at h; simp at h
  | some n =>
    obtain ⟨l, t, hs, hl, hh⟩ := line_of_chunkSizeOf hc
    rw [hh] at hc
    rw [hh, hc] at h
    simp only at h
    rw [hs, List.drop_left] at h
    by_cases hn : n = 0
    · rw [if_pos hn] at h
      split at h
      · rename_i hcr
        cases h
        refine ⟨l, ?_, by rw [← hn]; exact hl⟩
        rw [hs]
        conv => lhs; rw [← List.take_append_drop 2 t, hcr]
        simp
      · cases h
    · rw [if_neg hn] at h
      split at h
      · split at h <;> cases h
      · split at h <;> cases h

theorem stepRes_no_cut {s d : Bytes} : stepRes true s ≠ .cut d := by
  intro h
  unfold stepRes at h
  simp only at h
  split at h
  · cases h
  · split at h
    · split at h <;> cases h
    · split at h
      · cases h
      · split at h <;> cases h

/-! ## Well-formed data -/

/-- A chunked body with payload `rem` still to come, then `rest`; `srem` is left in the stream. -/
def GoodS (V : σ → Bytes → Prop) (rest srem : Bytes) (r : BufReader σ) (rem : Bytes) : Prop :=
  ∃ c, CBase r c ∧ V r.stream srem ∧ c.notChunked = false ∧
    ((c.allChunksRead = true ∧ srem = rest ∧ rem = r.buff.getD []) ∨
     (c.allChunksRead = false ∧ ∃ e p, LooseBody e p ∧ srem = e ++ rest ∧ rem = r.buff.getD [] ++ p))

def Good (V : σ → Bytes → Prop) (rest : Bytes) (r : BufReader σ) (rem : Bytes) : Prop :=
  ∃ srem, GoodS V rest srem r rem

theorem good_loop (hE : ExactRead V) (hL : ExactLine V) {rest : Bytes} : ∀ (fuel : Nat) (r : BufReader σ) (rem srem : Bytes),
    GoodS V rest srem r rem → srem.length + 1 < fuel →
    ∃ r', chunkedFillLoop fuel r = (.ok (), r') ∧ Good V rest r' rem ∧ (rem ≠ [] → r'.noBuff = false) ∧
      (rem = [] → V r'.stream rest) := by
  intro fuel
  induction fuel with
  | zero => intros; omega
  | succ fuel ih =>
    intro r rem srem h hf
    have h' := h
    obtain ⟨c, hb, hs, hn, hst⟩ := h
    rcases hst with ⟨ha, h1, h2⟩ | ⟨ha, e, p, hl, h1, h2⟩
    · refine ⟨r, chunkedFillLoop_stop hb _ (Or.inr ha), ⟨srem, h'⟩, ?_, fun _ => by rw [← h1]; exact hs⟩
      intro hne
      cases hnb : r.noBuff with
      | false => rfl
      | true => exact absurd (h2.trans (noBuff_iff.1 hnb)) hne
    · cases hnb : r.noBuff with
      | false =>
        refine ⟨r, chunkedFillLoop_stop hb _ (Or.inl hnb), ⟨srem, h'⟩, fun _ => hnb, ?_⟩
        intro h0
        rw [h0] at h2
        have := noBuff_iff.2 (List.append_eq_nil_iff.1 h2.symm).1
        rw [hnb] at this; cases this
      | true =>
        have hstep := chunkedFillLoop_step hE hL hb hs fuel hnb ha hn
        rw [noBuff_iff.1 hnb, List.nil_append] at h2
        cases hl with
        | @last l hl =>
          rw [h1, stepRes_last hl] at hstep
          obtain ⟨r', g1, g2, g3, g4⟩ := hstep
          obtain ⟨f, rfl⟩ : ∃ f, fuel = f + 1 := ⟨fuel - 1, by omega⟩
          rw [g1, chunkedFillLoop_stop g2 _ (Or.inr rfl)]
          refine ⟨r', rfl, ⟨rest, { c with allChunksRead := true }, g2, g3, hn, Or.inl ⟨rfl, rfl, by rw [g4, h2]⟩⟩, fun h => absurd h2 h, fun _ => g3⟩
        | @chunk l n d e p hl hn0 hd hrest =>
          rw [h1, List.append_assoc _ e rest, stepRes_chunk hl hn0 hd] at hstep
          obtain ⟨r', g1, g2, g3, g4⟩ := hstep
          rw [g1]
          refine ih r' rem (e ++ rest) ⟨c, g2, g3, hn, Or.inr ⟨ha, e, p, hrest, rfl, by rw [g4, h2]⟩⟩ ?_
          rw [h1] at hf
          simp only [List.length_append, List.length_cons, List.length_nil] at hf ⊢
          omega

theorem fillbuff_chunked {r : BufReader σ} {c : ChunkState} (h : CBase r c) (hn : c.notChunked = false) :
    r.fillbuff = chunkedFillLoop (PyStream.bound r.stream + 2) r := by
  simp [fillbuff, h.chunk, hn]

theorem LooseBody.len_le {e p : Bytes} (h : LooseBody e p) : p.length ≤ e.length := by
  induction h with
  | last => simp
  | chunk _ _ _ _ ih => simp; omega

theorem bound_ge {r : BufReader σ} (n : Nat) (h : n ≤ PyStream.bound r.stream) : (r.buff.getD []).length + n ≤ r.bound := by
  unfold BufReader.bound
  exact Nat.add_le_add_left (Nat.le_trans (Nat.le_trans h (Nat.le_add_left _ _)) (Nat.le_mul_of_pos_left _ (by omega))) _

theorem good_fillLaw (hE : ExactRead V) (hL : ExactLine V) (rest : Bytes) : FillLaw (Good V rest (σ := σ)) where
  pre := by
    rintro r rem ⟨srem, c, hb, hs, hn, hst⟩
    rcases hst with ⟨ha, h1, h2⟩ | ⟨ha, e, p, hl, h1, h2⟩
    · exact ⟨[], by rw [h2, List.append_nil]⟩
    · exact ⟨p, h2.symm⟩
  fill := by
    rintro r rem ⟨srem, h⟩
    have h' := h
    obtain ⟨c, hb, hs, hn, _⟩ := h
    rw [fillbuff_chunked hb hn]
    have := hE.bound hs
    obtain ⟨r', g1, g2, g3, _⟩ := good_loop hE hL (PyStream.bound r.stream + 2) r rem srem h' (by omega)
    exact ⟨r', g1, g2, g3⟩
  empty := by
    rintro r rem ⟨srem, c, hb, h⟩
    rw [empty_noDecomp hb.decomp]; exact ⟨srem, c, hb, h⟩
  take := by
    rintro r rem ⟨srem, c, hb, hs, hn, hst⟩ k hk
    refine ⟨srem, c, ⟨hb.decomp, hb.chunk, hb.block, hb.sd⟩, hs, hn, ?_⟩
    rcases hst with ⟨ha, h1, h2⟩ | ⟨ha, e, p, hl, h1, h2⟩
    · exact Or.inl ⟨ha, h1, by rw [h2]; rfl⟩
    · refine Or.inr ⟨ha, e, p, hl, h1, ?_⟩
      rw [h2, List.drop_append_of_le_length hk]; rfl
  bound := by
    rintro r rem ⟨srem, c, hb, hs, hn, hst⟩
    have h0 := hE.bound hs
    rcases hst with ⟨ha, h1, h2⟩ | ⟨ha, e, p, hl, h1, h2⟩
    · have := bound_ge (r := r) 0 (by omega)
      rw [h2]; omega
    · have h3 := LooseBody.len_le hl
      have := bound_ge (r := r) p.length (by rw [h1] at h0; simp at h0; omega)
      rw [h2, List.length_append]; exact this

/-- Once the payload has been read the stream is exactly behind the body. -/
theorem good_end (hE : ExactRead V) (hL : ExactLine V) {rest : Bytes} {r : BufReader σ} (h : Good V rest r []) :
    ∃ r', r.read none = (.ok [], r') ∧ V r'.stream rest := by
  obtain ⟨srem, h⟩ := h
  have h' := h
  obtain ⟨c, hb, hs, hn, _⟩ := h
  have := hE.bound hs
  obtain ⟨r', g1, g2, g3, g4⟩ := good_loop hE hL (PyStream.bound r.stream + 2) r [] srem h' (by omega)
  have hfl := (good_fillLaw hE hL rest).pre g2
  have hnb : r'.noBuff = true := noBuff_iff.2 (List.prefix_nil.1 hfl)
  obtain ⟨srem', c', hb', _⟩ := g2
  refine ⟨r', ?_, g4 rfl⟩
  unfold BufReader.read readLoop
  simp only [wantsMore, if_true]
  rw [fillbuff_chunked hb hn, g1]
  simp only
  rw [empty_noDecomp hb'.decomp, hnb]
  rfl

/-! ## All data, without exceptions -/

/-- What a lenient reader makes of the stream's data. -/
def lenient : Nat → Bytes → Bytes
  | 0, s => s
  | f + 1, s =>
    match stepRes false s with
    | .bad d left => (takeLine s).take 64 ++ d ++ left
    | .fin _ => []
    | .cut d => d
    | .data d left => d ++ lenient f left

theorem stepRes_left_lt {b : Bool} {s d left : Bytes} (h : stepRes b s = .data d left) :
    left.length + d.length + 4 ≤ s.length := by
  obtain ⟨l, n, hs, _⟩ := stepRes_data h
  rw [hs]; simp; omega

theorem lenient_fuel : ∀ (f g : Nat) (s : Bytes), s.length < f → s.length < g → lenient f s = lenient g s := by
  intro f
  induction f with
  | zero => intros; omega
  | succ f ih =>
    intro g s hf hg
    obtain ⟨g, rfl⟩ : ∃ g', g = g' + 1 := ⟨g - 1, by omega⟩
    simp only [lenient]
    cases h : stepRes false s with
    | data d left =>
      have := stepRes_left_lt h
      simp only
      rw [ih g left (by omega) (by omega)]
    | _ => rfl

theorem lenient_len : ∀ (f : Nat) (s : Bytes), s.length < f → (lenient f s).length ≤ s.length := by
  intro f
  induction f with
  | zero => intros; omega
  | succ f ih =>
    intro s hf
    simp only [lenient]
    cases h : stepRes false s with
    | data d left =>
      have h1 := stepRes_left_lt h
      have h2 := ih left (by omega)
      simp only [List.length_append]; omega
    | fin _ => simp
    | cut d =>
      unfold stepRes at h
      simp only at h
      split at h
      · cases h
      · split at h
        · split at h <;> cases h
        · split at h
          · simp at h; rw [← h]; simp
          · split at h <;> cases h
    | bad d left =>
      have hlen : ((takeLine s).take 64).length + (s.drop ((takeLine s).take 64).length).length = s.length := by
        have := takeLine_length_le s
        simp only [List.length_drop, List.length_take]; omega
      simp only [List.length_append]
      unfold stepRes at h
      simp only at h
      generalize (takeLine s).take 64 = hdr at *
      generalize s.drop hdr.length = t at *
      split at h
      · cases h; simp only [List.length_nil]; omega
      · split at h
        · split at h
          · cases h
          · cases h; simp only [List.length_nil, List.length_drop]; omega
        · split at h
          · simp at h
          · split at h
            · cases h
            · cases h; simp only [List.length_drop, List.length_take]; omega

/-- What is still to come from the stream. -/
def lenTail (c : ChunkState) (srem : Bytes) : Bytes :=
  if c.notChunked then srem else if c.allChunksRead then [] else lenient (srem.length + 1) srem

/-- A lenient reader over any data. -/
def LenS (V : σ → Bytes → Prop) (srem : Bytes) (r : BufReader σ) (rem : Bytes) : Prop :=
  ∃ c, CBase r c ∧ c.raiseExceptions = false ∧ V r.stream srem ∧ rem = r.buff.getD [] ++ lenTail c srem

def Len (V : σ → Bytes → Prop) (r : BufReader σ) (rem : Bytes) : Prop := ∃ srem, LenS V srem r rem

theorem len_base (hE : ExactRead V) {r : BufReader σ} {c : ChunkState} {srem rem : Bytes} (h : CBase r c)
    (hr : c.raiseExceptions = false) (hs : V r.stream srem) (hn : c.notChunked = true) (hrem : rem = r.buff.getD [] ++ srem) :
    ∃ r', r.baseFill = (.ok (), r') ∧ Len V r' rem ∧ (rem ≠ [] → r'.noBuff = false) := by
  obtain ⟨r', srem', g1, g2, g3, g4, g5⟩ := baseFill_cbase hE.full h hs
  refine ⟨r', g1, ⟨srem', c, g2, hr, g3, by rw [hrem, g4, lenTail, if_pos hn]⟩, ?_⟩
  intro hne
  cases hnb : r'.noBuff with
  | false => rfl
  | true => exact absurd (hrem.trans (g5 hnb)) hne

theorem len_loop (hE : ExactRead V) (hL : ExactLine V) : ∀ (fuel : Nat) (r : BufReader σ) (c : ChunkState) (rem srem : Bytes),
    CBase r c → c.raiseExceptions = false → c.notChunked = false → V r.stream srem →
    rem = r.buff.getD [] ++ lenTail c srem → srem.length + 1 < fuel →
    ∃ r', chunkedFillLoop fuel r = (.ok (), r') ∧ Len V r' rem ∧ (rem ≠ [] → r'.noBuff = false) := by
  intro fuel
  induction fuel with
  | zero => intros; omega
  | succ fuel ih =>
    intro r c rem srem hb hr hn hs hrem hf
    have h' : LenS V srem r rem := ⟨c, hb, hr, hs, hrem⟩
    cases ha : c.allChunksRead with
    | true =>
      refine ⟨r, chunkedFillLoop_stop hb _ (Or.inr ha), ⟨srem, h'⟩, ?_⟩
      rw [lenTail, hn, ha] at hrem
      simp only [Bool.false_eq_true, if_false, if_true, List.append_nil] at hrem
      intro hne
      cases hnb : r.noBuff with
      | false => rfl
      | true => exact absurd (hrem.trans (noBuff_iff.1 hnb)) hne
    | false =>
      cases hnb : r.noBuff with
      | false => exact ⟨r, chunkedFillLoop_stop hb _ (Or.inl hnb), ⟨srem, h'⟩, fun _ => hnb⟩
      | true =>
        have hstep := chunkedFillLoop_step hE hL hb hs fuel hnb ha hn
        rw [noBuff_iff.1 hnb, List.nil_append, lenTail, hn, ha] at hrem
        simp only [Bool.false_eq_true, if_false, lenient] at hrem
        rw [hr] at hstep
        obtain ⟨f, hfe⟩ : ∃ f, fuel = f + 1 := ⟨fuel - 1, by omega⟩
        cases hres : stepRes false srem with
        | bad d left =>
          rw [hres] at hstep hrem
          obtain ⟨s', g1, g2⟩ := hstep
          rw [g2]
          unfold afterBad
          rw [if_neg (by simp [hr])]
          have hb0 : CBase ({ r with stream := s' } : BufReader σ) c := ⟨hb.decomp, hb.chunk, hb.block, hb.sd⟩
          obtain ⟨p1, p2, p3, _⟩ := processRead_cbase hb0 ((takeLine srem).take 64 ++ d)
          refine len_base hE (c := { c with notChunked := true }) ⟨p1.decomp, rfl, p1.block, p1.sd⟩ hr
            (srem := left) (by show V (processRead _ _).stream left; rw [p2]; exact g1) rfl ?_
          show rem = (processRead _ _).buff.getD [] ++ left
          rw [p3, hrem]
        | fin left =>
          rw [hres] at hstep hrem
          obtain ⟨r', g1, g2, g3, g4⟩ := hstep
          rw [g1, hfe, chunkedFillLoop_stop g2 _ (Or.inr rfl)]
          refine ⟨r', rfl, ⟨left, _, g2, rfl, g3, ?_⟩, fun h => absurd hrem h⟩
          rw [g4, hrem, lenTail]; simp [hn]
        | cut d =>
          rw [hres] at hstep hrem
          obtain ⟨r', g1, g2, g3, g4⟩ := hstep
          rw [g1, hfe, chunkedFillLoop_stop g2 _ (Or.inr rfl)]
          refine ⟨r', rfl, ⟨[], _, g2, rfl, g3, ?_⟩, ?_⟩
          · rw [g4, hrem, lenTail]; simp [hn]
          · intro hne
            cases hnb' : r'.noBuff with
            | false => rfl
            | true =>
              have := noBuff_iff.1 hnb'
              rw [g4] at this
              exact absurd (hrem.trans this) hne
        | data d left =>
          rw [hres] at hstep hrem
          obtain ⟨r', g1, g2, g3, g4⟩ := hstep
          have hlt := stepRes_left_lt hres
          rw [g1]
          refine ih r' c rem left g2 hr hn g3 ?_ (by omega)
          rw [g4, hrem, lenTail, hn, ha]
          simp only [Bool.false_eq_true, if_false]
          rw [lenient_fuel srem.length (left.length + 1) left (by omega) (by omega)]

theorem lenTail_len (c : ChunkState) (srem : Bytes) : (lenTail c srem).length ≤ srem.length := by
  unfold lenTail
  split
  · exact Nat.le_refl _
  · split
    · simp
    · exact lenient_len _ _ (by omega)

theorem len_fillLaw (hE : ExactRead V) (hL : ExactLine V) : FillLaw (Len V (σ := σ)) where
  pre := by
    rintro r rem ⟨srem, c, hb, hr, hs, hrem⟩
    exact ⟨_, hrem.symm⟩
  fill := by
    rintro r rem ⟨srem, c, hb, hr, hs, hrem⟩
    cases hn : c.notChunked with
    | false =>
      rw [fillbuff_chunked hb hn]
      have := hE.bound hs
      exact len_loop hE hL _ r c rem srem hb hr hn hs hrem (by omega)
    | true =>
      have : r.fillbuff = r.baseFill := by simp [fillbuff, hb.chunk, hn]
      rw [this]
      exact len_base hE hb hr hs hn (by rw [hrem, lenTail, if_pos hn])
  empty := by
    rintro r rem ⟨srem, c, hb, h⟩
    rw [empty_noDecomp hb.decomp]; exact ⟨srem, c, hb, h⟩
  take := by
    rintro r rem ⟨srem, c, hb, hr, hs, hrem⟩ k hk
    refine ⟨srem, c, ⟨hb.decomp, hb.chunk, hb.block, hb.sd⟩, hr, hs, ?_⟩
    rw [hrem, List.drop_append_of_le_length hk]; rfl
  bound := by
    rintro r rem ⟨srem, c, hb, hr, hs, hrem⟩
    have h0 := hE.bound hs
    have h1 := lenTail_len c srem
    have := bound_ge (r := r) (lenTail c srem).length (by omega)
    rw [hrem, List.length_append]; exact this

/-! ## Malformed data with exceptions -/

/-- Data on which a strict reader fails at some point. -/
inductive Bad : Bytes → Prop
  | now {s d left} : stepRes true s = .bad d left → Bad s
  | later {s d left} : stepRes true s = .data d left → Bad left → Bad s

/-- All data is either a body and something behind it, or bad. -/
theorem good_or_bad : ∀ (k : Nat) (s : Bytes), s.length < k → (∃ e p rest, s = e ++ rest ∧ LooseBody e p) ∨ Bad s := by
  intro k
  induction k with
  | zero => intros; omega
  | succ k ih =>
    intro s hk
    cases h : stepRes true s with
    | bad d left => exact Or.inr (.now h)
    | cut d => exact absurd h stepRes_no_cut
    | fin left =>
      obtain ⟨l, hs, hl⟩ := stepRes_fin h
      exact Or.inl ⟨_, [], left, hs, .last hl⟩
    | data d left =>
      have hlt := stepRes_left_lt h
      rcases ih left (by omega) with ⟨e, p, rest, h1, h2⟩ | hb
      · obtain ⟨l, n, hs, hl, hn, hd⟩ := stepRes_data h
        refine Or.inl ⟨l ++ crlf ++ d ++ crlf ++ e, d ++ p, rest, ?_, .chunk hl hn hd h2⟩
        rw [hs, h1]; simp
      · exact Or.inr (.later h hb)

theorem bad_loop (hE : ExactRead V) (hL : ExactLine V) : ∀ (fuel : Nat) (r : BufReader σ) (c : ChunkState) (srem : Bytes),
    CBase r c → c.raiseExceptions = true → c.notChunked = false → c.allChunksRead = false → V r.stream srem → Bad srem →
    srem.length + 1 < fuel →
    (∃ r' d, chunkedFillLoop fuel r = (.error (.chunkedData d), r')) ∨
    (∃ r' srem', chunkedFillLoop fuel r = (.ok (), r') ∧ CBase r' c ∧ V r'.stream srem' ∧ Bad srem' ∧ r'.noBuff = false ∧
      (r.noBuff = true → srem'.length < srem.length ∧ (r'.buff.getD []).length + srem'.length ≤ srem.length) ∧ (r.noBuff = false → r' = r ∧ srem' = srem)) := by
  intro fuel
  induction fuel with
  | zero => intros; omega
  | succ fuel ih =>
    intro r c srem hb hr hn ha hs hbad hf
    cases hnb : r.noBuff with
    | false => exact Or.inr ⟨r, srem, chunkedFillLoop_stop hb _ (Or.inl hnb), hb, hs, hbad, hnb, (fun h => by cases h), (fun _ => ⟨rfl, rfl⟩)⟩
    | true =>
      have hstep := chunkedFillLoop_step hE hL hb hs fuel hnb ha hn
      rw [hr] at hstep
      cases hbad with
      | @now _ d left hres =>
        rw [hres] at hstep
        obtain ⟨s', g1, g2⟩ := hstep
        unfold afterBad at g2
        rw [if_pos hr] at g2
        exact Or.inl ⟨_, d, g2⟩
      | @later _ d left hres hbad =>
        rw [hres] at hstep
        obtain ⟨r', g1, g2, g3, g4⟩ := hstep
        have hlt := stepRes_left_lt hres
        rw [g1]
        rcases ih r' c left g2 hr hn ha g3 hbad (by omega) with h | ⟨r'', srem', k1, k2, k3, k4, k5, k6, k7⟩
        · exact Or.inl h
        · refine Or.inr ⟨r'', srem', k1, k2, k3, k4, k5, (fun _ => ?_), (fun h => by cases h)⟩
          cases hnb' : r'.noBuff with
          | true => have := k6 hnb'; omega
          | false =>
            obtain ⟨h1, h2⟩ := k7 hnb'
            rw [h1, h2, g4]; omega

theorem bad_read (hE : ExactRead V) (hL : ExactLine V) : ∀ (fuel : Nat) (acc : Bytes) (r : BufReader σ) (c : ChunkState) (srem : Bytes),
    CBase r c → c.raiseExceptions = true → c.notChunked = false → c.allChunksRead = false → V r.stream srem → Bad srem →
    (r.buff.getD []).length + srem.length + 1 < fuel →
    ∃ r' d, readLoop fuel none acc r = (.error (.chunkedData d), r') := by
  intro fuel
  induction fuel with
  | zero => intros; omega
  | succ fuel ih =>
    intro acc r c srem hb hr hn ha hs hbad hf
    unfold readLoop
    simp only [wantsMore, if_true]
    rw [fillbuff_chunked hb hn]
    have := hE.bound hs
    rcases bad_loop hE hL (PyStream.bound r.stream + 2) r c srem hb hr hn ha hs hbad (by omega) with
      ⟨r', d, h⟩ | ⟨r', srem', k1, k2, k3, k4, k5, k6, k7⟩
    · rw [h]; exact ⟨r', d, rfl⟩
    · rw [k1]
      simp only
      rw [empty_of_noBuff_false k5]
      simp only [Bool.false_eq_true, if_false]
      refine ih _ (r'.buffRead none).2 c srem' ⟨k2.decomp, k2.chunk, k2.block, k2.sd⟩ hr hn ha k3 k4 ?_
      have hbl : 0 < (r'.buff.getD []).length := by
        apply List.length_pos_iff.2
        intro h0; rw [noBuff_iff.2 h0] at k5; cases k5
      simp only [buffRead, askLen, Option.getD_some, List.length_drop, Nat.sub_self]
      cases hnb : r.noBuff with
      | true =>
        have := k6 hnb
        omega
      | false =>
        obtain ⟨h1, h2⟩ := k7 hnb
        rw [h1] at hbl
        rw [h2]; omega

/-- A strict reader on bad data. -/
def BadV (V : σ → Bytes → Prop) (r : BufReader σ) : Prop :=
  ∃ c srem, CBase r c ∧ c.raiseExceptions = true ∧ c.notChunked = false ∧ c.allChunksRead = false ∧ V r.stream srem ∧ Bad srem

/-- On bad data `read(n)` raises or delivers all `n` bytes: it never comes out short. -/
theorem bad_read_some (hE : ExactRead V) (hL : ExactLine V) : ∀ (fuel : Nat) (n : Nat) (acc : Bytes) (r : BufReader σ) (c : ChunkState) (srem : Bytes),
    CBase r c → c.raiseExceptions = true → c.notChunked = false → c.allChunksRead = false → V r.stream srem → Bad srem →
    (r.buff.getD []).length + srem.length + 1 < fuel →
    (∃ r' d, readLoop fuel (some (n : Int)) acc r = (.error (.chunkedData d), r')) ∨
    (∃ r' b, readLoop fuel (some (n : Int)) acc r = (.ok (acc ++ b), r') ∧ b.length = n ∧ BadV V r') := by
  intro fuel
  induction fuel with
  | zero => intros; omega
  | succ fuel ih =>
    intro n acc r c srem hb hr hn ha hs hbad hf
    unfold readLoop
    by_cases hn0 : n = 0
    · subst hn0
      right
      exact ⟨r, [], by simp [wantsMore], rfl, c, srem, hb, hr, hn, ha, hs, hbad⟩
    · have hw : wantsMore (some (n : Int)) = true := by simp [wantsMore]; omega
      rw [if_pos hw, fillbuff_chunked hb hn]
      have := hE.bound hs
      rcases bad_loop hE hL (PyStream.bound r.stream + 2) r c srem hb hr hn ha hs hbad (by omega) with
        ⟨r', d, h⟩ | ⟨r', srem', k1, k2, k3, k4, k5, k6, k7⟩
      · rw [h]; exact Or.inl ⟨r', d, rfl⟩
      · rw [k1]
        simp only
        rw [empty_of_noBuff_false k5]
        simp only [Bool.false_eq_true, if_false, Option.map_some]
        have hbl : 0 < (r'.buff.getD []).length := by
          apply List.length_pos_iff.2
          intro h0; rw [noBuff_iff.2 h0] at k5; cases k5
        have hask : askLen (some (n : Int)) (r'.buff.getD []).length = n := by
          have : ¬ ((n : Int) < 0) := by omega
          simp [askLen, this]
        have hmeas : (r'.buff.getD []).length + srem'.length ≤ (r.buff.getD []).length + srem.length := by
          cases hnb : r.noBuff with
          | true => have := k6 hnb; omega
          | false => obtain ⟨h1, h2⟩ := k7 hnb; rw [h1, h2]; exact Nat.le_refl _
        simp only [buffRead, hask]
        generalize hbuf : r'.buff.getD [] = b at *
        have hl : (n : Int) - len (b.take n) = ((n - min n b.length : Nat) : Int) := by
          simp only [len, List.length_take]; omega
        rw [hl]
        rcases ih (n - min n b.length) (acc ++ b.take n) { r' with buff := some (b.drop n) } c srem'
          ⟨k2.decomp, k2.chunk, k2.block, k2.sd⟩ hr hn ha k3 k4 (by simp only [Option.getD_some, List.length_drop]; omega) with
          h | ⟨r'', b', e1, e2, e3⟩
        · exact Or.inl h
        · refine Or.inr ⟨r'', b.take n ++ b', by rw [e1, List.append_assoc], ?_, e3⟩
          simp only [List.length_append, List.length_take]; omega

end BufReader
end Warcio
