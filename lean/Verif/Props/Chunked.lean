import Verif.Proofs.ChunkedLoop
import Verif.Toy

/-!
# Properties C06–C08: `ChunkedDataReader`

Specification: `ChunkedBody`, `LooseBody` (`Verif/Spec/Chunked.lean`) and the ideal stream of
`Verif/Spec/Streams.lean`.  The wrapped stream is any stream whose `read` and `readline` are
exact, such as a `BytesIO` (`C06_bytesio`).
-/

namespace Warcio.Props

open Warcio

section
variable {σ : Type} [Zlib] [PyStream σ] {V : σ → Bytes → Prop}

theorem newChunked_base (s : σ) (b : Bool) {bs : Nat} (hb : 0 < bs) :
    ∃ r : BufReader σ, BufReader.newChunked s b bs = .ok r ∧ BufReader.CBase r { raiseExceptions := b } ∧ r.stream = s ∧
      r.buff.getD [] = [] :=
  ⟨_, rfl, ⟨rfl, rfl, hb, rfl⟩, rfl, rfl⟩

/-! ## C06 -/

/-- C06: over the chunked encoding `e` of `p`, followed by anything, every history of `read`
and `readline()` calls returns what an ideal stream of `p` returns; when all of `p` has been
read the stream holds exactly what followed the encoding.  Both for `raise_exceptions` on and
off.  Partial: size lines of more than 64 bytes (long extensions) and trailers are not
understood (`C06_long_extension`, `C06_trailer`), and `readline(n)` is left out, as in C02. -/
theorem C06_dechunk_partial (hE : ExactRead V) (hL : ExactLine V) (s : σ) (e p rest : Bytes) (h : ChunkedBody e p)
    (hs : V s (e ++ rest)) (raiseExc : Bool) (bs : Nat) (hb : 0 < bs)
    (cs : List Call) (hc : ∀ c ∈ cs, c.nonneg ∧ c.simple = true) :
    ∃ r r1 r2 r3, BufReader.newChunked s raiseExc bs = .ok r ∧
      runCalls r cs = ((expectCalls p cs).1.map .ok, r1) ∧
      r1.read none = (.ok (expectCalls p cs).2, r2) ∧
      r2.read none = (.ok [], r3) ∧ V r3.stream rest := by
  obtain ⟨r, h1, h2, h3, h4⟩ := newChunked_base s raiseExc hb
  have hg : BufReader.Good V rest r p :=
    ⟨e ++ rest, _, h2, by rw [h3]; exact hs, rfl, Or.inr ⟨rfl, e, p, h.loose, rfl, by rw [h4]; rfl⟩⟩
  have hX := BufReader.exactRead (BufReader.good_fillLaw hE hL rest)
  obtain ⟨r1, k1, k2⟩ := hX.calls cs hg hc
  obtain ⟨r2, k3, k4⟩ := hX.read_none k2
  obtain ⟨r3, k5, k6⟩ := BufReader.good_end hE hL k4
  exact ⟨r, r1, r2, r3, h1, k1, k3, k5, k6⟩

/-- C06 for a `BytesIO`. -/
theorem C06_bytesio (e p rest : Bytes) (h : ChunkedBody e p) (raiseExc : Bool) (bs : Nat) (hb : 0 < bs)
    (cs : List Call) (hc : ∀ c ∈ cs, c.nonneg ∧ c.simple = true) :
    ∃ (r r1 r2 r3 : BufReader Bytes), BufReader.newChunked (e ++ rest) raiseExc bs = .ok r ∧
      runCalls r cs = ((expectCalls p cs).1.map .ok, r1) ∧
      r1.read none = (.ok (expectCalls p cs).2, r2) ∧
      r2.read none = (.ok [], r3) ∧ r3.stream = rest :=
  C06_dechunk_partial Bytes.exactRead Bytes.exactLine (e ++ rest) e p rest h rfl raiseExc bs hb cs hc

end

open Toy in
/-- C06 fails for a chunk whose extension makes the size line longer than 64 bytes: the
encoding itself is returned. -/
theorem C06_long_extension :
    ∃ (x : Bytes) (r : BufReader Bytes), 10 ∉ x ∧ BufReader.newChunked ([49, 59] ++ x ++ crlf ++ [65] ++ crlf ++ ([48] ++ crlf ++ crlf)) = .ok r ∧
      (r.read none).1 = .ok ([49, 59] ++ x ++ crlf ++ [65] ++ crlf ++ ([48] ++ crlf ++ crlf)) :=
  ⟨List.replicate 62 97, _, by decide, rfl, by decide⟩

open Toy in
/-- C06 fails for a body with a trailer (`X: y`): part of the encoding is returned behind the
payload, and two bytes (`X:`) of the trailer are lost. -/
theorem C06_trailer :
    ∃ (r : BufReader Bytes), BufReader.newChunked ([49, 13, 10, 65, 13, 10, 48, 13, 10] ++ [88, 58, 32, 121, 13, 10, 13, 10]) = .ok r ∧
      (r.read none).1 = .ok ([65] ++ [48, 13, 10] ++ [32, 121, 13, 10, 13, 10]) :=
  ⟨_, rfl, by decide⟩

/-- The hypotheses of C06 are met: two chunks, one with an extension. -/
example : ChunkedBody ([50, 13, 10, 65, 66, 13, 10] ++ ([49, 59, 120, 13, 10, 67, 13, 10] ++ [48, 48, 13, 10, 13, 10])) [65, 66, 67] :=
  ChunkedBody.chunk (l := [50]) (d := [65, 66])
    (.plain (.one (by decide)) (by decide) (by decide)) (by decide)
    (ChunkedBody.chunk (l := [49, 59, 120]) (d := [67]) (.ext (s := [49]) (x := [120]) (.one (by decide)) (by decide) (by decide) (by decide)) (by decide)
      (ChunkedBody.last (l := [48, 48]) (.plain (.snoc (s := [48]) (n := 0) (b := 48) (d := 0) (.one (by decide)) (by decide)) (by decide) (by decide))))

/-! ## C07 -/

section
variable {σ : Type} [Zlib] [PyStream σ] {V : σ → Bytes → Prop}

/-- With `raise_exceptions=False` a reader over `data` behaves as an ideal stream of `p`:
every history of calls terminates, never raises and returns parts of `p`. -/
def YieldsAll (s : σ) (p : Bytes) : Prop :=
  ∀ (bs : Nat), 0 < bs → ∀ (cs : List Call), (∀ c ∈ cs, c.nonneg ∧ c.simple = true) →
    ∃ (r r1 : BufReader σ), BufReader.newChunked s false bs = .ok r ∧ runCalls r cs = ((expectCalls p cs).1.map .ok, r1) ∧
      (r1.read none).1 = .ok (expectCalls p cs).2

theorem yields_lenient (hE : ExactRead V) (hL : ExactLine V) (s : σ) (data : Bytes) (hs : V s data) :
    YieldsAll s (BufReader.lenient (data.length + 1) data) := by
  intro bs hb cs hc
  obtain ⟨r, h1, h2, h3, h4⟩ := newChunked_base s false hb
  have hg : BufReader.Len V r (BufReader.lenient (data.length + 1) data) :=
    ⟨data, _, h2, rfl, by rw [h3]; exact hs, by rw [h4]; rfl⟩
  have hX := BufReader.exactRead (BufReader.len_fillLaw hE hL)
  obtain ⟨r1, k1, k2⟩ := hX.calls cs hg hc
  obtain ⟨r2, k3, _⟩ := hX.read_none k2
  exact ⟨r, r1, h1, k1, congrArg Prod.fst k3⟩

/-- C07, totality: whatever the data, a reader without exceptions behaves as an ideal stream
of some bytes, not more than there are.  Partial: which bytes is said by the theorems below;
`readline(n)` is left out, and the wrapped stream's own reads are exact and do not raise. -/
theorem C07_total_partial (hE : ExactRead V) (hL : ExactLine V) (s : σ) (data : Bytes) (hs : V s data) :
    ∃ p, p.length ≤ data.length ∧ YieldsAll s p :=
  ⟨_, BufReader.lenient_len _ _ (by omega), yields_lenient hE hL s data hs⟩

/-- C07, data that is not chunked: it does not start with a size line, and is returned
unchanged. -/
theorem C07_not_chunked (hE : ExactRead V) (hL : ExactLine V) (s : σ) (data : Bytes) (hs : V s data)
    (hn : ∀ l n t, data = l ++ crlf ++ t → ¬ LooseLine l n) : YieldsAll s data := by
  have : BufReader.lenient (data.length + 1) data = data := by
    have hc : BufReader.chunkSizeOf ((takeLine data).take 64) = none := by
      cases hc : BufReader.chunkSizeOf ((takeLine data).take 64) with
      | none => rfl
      | some n =>
        obtain ⟨l, t, h1, h2, _⟩ := line_of_chunkSizeOf hc
        exact absurd h2 (hn l n t h1)
    simp only [BufReader.lenient, BufReader.stepRes, hc, List.append_nil]
    have hp : (takeLine data).take 64 <+: data := (List.take_prefix _ _).trans (takeLine_prefix data)
    obtain ⟨t, ht⟩ := hp
    conv => lhs; rw [← ht]
    conv => rhs; rw [← ht]
    generalize hh : (takeLine data).take 64 = x at *
    rw [← ht] at hh
    rw [hh, List.drop_left]
  rw [← this]
  exact yields_lenient hE hL s data hs

/-- The chunks `e` of a body with payload `p`, without the last (zero) chunk. -/
inductive Chunks : Bytes → Bytes → Prop
  | nil : Chunks [] []
  | cons {l d e p} : SizeLine l d.length → d ≠ [] → Chunks e p → Chunks (l ++ crlf ++ d ++ crlf ++ e) (d ++ p)

theorem lenient_chunks {e p : Bytes} (h : Chunks e p) (t : Bytes) :
    BufReader.lenient ((e ++ t).length + 1) (e ++ t) = p ++ BufReader.lenient (t.length + 1) t := by
  induction h with
  | nil => simp
  | @cons l d e p hl hd _ ih =>
    have hs : BufReader.stepRes false (l ++ crlf ++ d ++ crlf ++ e ++ t) = .data d (e ++ t) := by
      rw [List.append_assoc _ e t]
      refine BufReader.stepRes_chunk hl.loose ?_ rfl
      have := List.length_pos_iff.2 hd; omega
    rw [BufReader.lenient.eq_def]
    simp only [hs]
    have hlt := BufReader.stepRes_left_lt hs
    rw [BufReader.lenient_fuel _ ((e ++ t).length + 1) (e ++ t) (by omega) (by omega), ih, List.append_assoc]

/-- C07, cut inside the data of a chunk: exactly the payload before the cut. -/
theorem C07_cut_in_data (hE : ExactRead V) (hL : ExactLine V) (s : σ) (e p l d : Bytes) (n : Nat) (h : Chunks e p)
    (hl : SizeLine l n) (hd : d.length < n) (hs : V s (e ++ (l ++ crlf ++ d))) : YieldsAll s (p ++ d) := by
  have : BufReader.lenient ((e ++ (l ++ crlf ++ d)).length + 1) (e ++ (l ++ crlf ++ d)) = p ++ d := by
    rw [lenient_chunks h, BufReader.lenient.eq_def]
    simp only [BufReader.stepRes_line hl.loose]
    rw [if_neg (by omega), if_pos (by simp only [len]; omega)]
    rfl
  rw [← this]
  exact yields_lenient hE hL s _ hs

/-- C07, cut inside a size line: the payload before the cut, then what there is of the size
line. -/
theorem C07_cut_in_size (hE : ExactRead V) (hL : ExactLine V) (s : σ) (e p l x : Bytes) (n : Nat) (h : Chunks e p)
    (hl : SizeLine l n) (hx : x <+: l ++ crlf) (hxl : x.length < (l ++ crlf).length) (hs : V s (e ++ x)) :
    YieldsAll s (p ++ x) := by
  have h10 : (10 : UInt8) ∉ x := by
    have : x <+: l ++ [13] := by
      have h1 : l ++ crlf = (l ++ [13]) ++ [10] := by simp
      rw [h1] at hx hxl
      exact List.prefix_of_prefix_length_le hx (List.prefix_append _ _) (by simp at hxl ⊢; omega)
    intro hm
    have := this.subset hm
    simp only [List.mem_append, List.mem_singleton] at this
    rcases this with h' | h'
    · exact hl.loose.1 h'
    · exact absurd h' (by decide)
  have : BufReader.lenient ((e ++ x).length + 1) (e ++ x) = p ++ x := by
    rw [lenient_chunks h]
    have hc : BufReader.chunkSizeOf ((takeLine x).take 64) = none := by
      cases hc : BufReader.chunkSizeOf ((takeLine x).take 64) with
      | none => rfl
      | some n =>
        obtain ⟨l, t, h1, h2, _⟩ := line_of_chunkSizeOf hc
        exfalso; apply h10; rw [h1]; simp
    simp only [BufReader.lenient, BufReader.stepRes, hc, List.append_nil]
    congr 1
    rw [takeLine_of_no_nl h10]
    have : (x.take 64) ++ x.drop (x.take 64).length = x := by
      by_cases h64 : x.length ≤ 64
      · rw [List.take_of_length_le h64, List.drop_length, List.append_nil]
      · rw [List.length_take, Nat.min_eq_left (by omega), List.take_append_drop]
    exact this
  rw [← this]
  exact yields_lenient hE hL s _ hs

/-- C07, cut behind the data of a chunk, before or inside its CRLF: all of the payload is
there, but with the chunk's size line inserted before the chunk's data. -/
theorem C07_cut_in_terminator (hE : ExactRead V) (hL : ExactLine V) (s : σ) (e p l d x : Bytes) (h : Chunks e p)
    (hl : SizeLine l d.length) (hd : d ≠ []) (hx : x = [] ∨ x = [13]) (hs : V s (e ++ (l ++ crlf ++ (d ++ x)))) :
    YieldsAll s (p ++ (l ++ crlf ++ d)) := by
  have : BufReader.lenient ((e ++ (l ++ crlf ++ (d ++ x))).length + 1) (e ++ (l ++ crlf ++ (d ++ x))) = p ++ (l ++ crlf ++ d) := by
    rw [lenient_chunks h, BufReader.lenient.eq_def]
    have := List.length_pos_iff.2 hd
    simp only [BufReader.stepRes_line hl.loose]
    rw [if_neg (by omega), if_neg (by simp only [len, List.length_append]; omega)]
    simp only [Int.toNat_natCast, List.drop_left, List.take_left]
    have hx2 : x.take 2 ≠ crlf ∧ x.drop 2 = [] := by rcases hx with rfl | rfl <;> decide
    rw [if_neg hx2.1]
    simp only
    rw [hx2.2, header_of_line hl.loose.1 hl.loose.2.1]
    simp
  rw [← this]
  exact yields_lenient hE hL s _ hs

/-- C07, cut inside the CRLF that ends the body: the payload, then the last size line. -/
theorem C07_cut_in_last (hE : ExactRead V) (hL : ExactLine V) (s : σ) (e p l x : Bytes) (h : Chunks e p)
    (hl : SizeLine l 0) (hx : x = [] ∨ x = [13]) (hs : V s (e ++ (l ++ crlf ++ x))) :
    YieldsAll s (p ++ (l ++ crlf)) := by
  have : BufReader.lenient ((e ++ (l ++ crlf ++ x)).length + 1) (e ++ (l ++ crlf ++ x)) = p ++ (l ++ crlf) := by
    rw [lenient_chunks h, BufReader.lenient.eq_def]
    simp only [BufReader.stepRes_line hl.loose]
    have hx2 : x.take 2 ≠ crlf ∧ x.drop 2 = [] := by rcases hx with rfl | rfl <;> decide
    rw [if_pos (by rfl), if_neg hx2.1]
    simp only
    rw [hx2.2, header_of_line hl.loose.1 hl.loose.2.1]
    simp
  rw [← this]
  exact yields_lenient hE hL s _ hs

end

open Toy in
/-- C07 fails as stated: data that looks chunked at first loses two bytes (`yz`). -/
theorem C07_bytes_lost :
    ∃ (r : BufReader Bytes), BufReader.newChunked [49, 13, 10, 120, 121, 122, 49, 50, 51] = .ok r ∧
      (r.read none).1 = .ok [49, 13, 10, 120, 49, 50, 51] := ⟨_, rfl, by decide⟩

open Toy in
/-- A chunk of negative size is accepted (`-1` is a number for Python) and skipped. -/
theorem C07_negative_size :
    ∃ (r : BufReader Bytes), BufReader.newChunked ([45, 49, 13, 10, 13, 10] ++ [49, 13, 10, 65, 13, 10, 48, 13, 10, 13, 10]) true = .ok r ∧
      (r.read none).1 = .ok [65] := ⟨_, rfl, by decide⟩

/-- The hypotheses of the theorems on cut bodies are met. -/
example : Chunks [49, 13, 10, 65, 13, 10] [65] :=
  Chunks.cons (l := [49]) (d := [65]) (.plain (.one (by decide)) (by decide) (by decide)) (by decide) .nil

example : SizeLine [50] 2 ∧ [66].length < 2 := ⟨.plain (.one (by decide)) (by decide) (by decide), by decide⟩

/-- The hypothesis of `C07_not_chunked` is met by an ordinary text. -/
example : ∀ l n t, ([60, 104, 116, 109, 108, 62] : Bytes) = l ++ crlf ++ t → ¬ LooseLine l n := by
  intro l n t h
  have : (10 : UInt8) ∈ ([60, 104, 116, 109, 108, 62] : Bytes) := by rw [h]; simp
  simp at this

/-! ## C08 -/

section
variable {σ : Type} [Zlib] [PyStream σ] {V : σ → Bytes → Prop}

theorem badV_new (s : σ) {data : Bytes} (hs : V s data) (hbad : BufReader.Bad data) {bs : Nat} (hb : 0 < bs) :
    ∃ r : BufReader σ, BufReader.newChunked s true bs = .ok r ∧ BufReader.BadV V r ∧ r.buff.getD [] = [] ∧ r.stream = s := by
  obtain ⟨r, h1, h2, h3, h4⟩ := newChunked_base s true hb
  exact ⟨r, h1, ⟨_, data, h2, rfl, rfl, rfl, by rw [h3]; exact hs, hbad⟩, h4, h3⟩

theorem badV_read_none (hE : ExactRead V) (hL : ExactLine V) {r : BufReader σ} (h : BufReader.BadV V r) :
    ∃ d, (r.read none).1 = .error (.chunkedData d) := by
  obtain ⟨c, srem, hb, hr, hn, ha, hs, hbad⟩ := h
  have := hE.bound hs
  have h0 := BufReader.bound_ge (r := r) srem.length this
  obtain ⟨r', d, h⟩ := BufReader.bad_read hE hL (r.bound + 2) [] r c srem hb hr hn ha hs hbad (by omega)
  exact ⟨d, by rw [BufReader.read, h]⟩

theorem badV_read_some (hE : ExactRead V) (hL : ExactLine V) {r : BufReader σ} (h : BufReader.BadV V r) (n : Nat) :
    (∃ d, (r.read (some (n : Int))).1 = .error (.chunkedData d)) ∨
    (∃ r' b, r.read (some (n : Int)) = (.ok b, r') ∧ b.length = n ∧ BufReader.BadV V r') := by
  obtain ⟨c, srem, hb, hr, hn, ha, hs, hbad⟩ := h
  have := hE.bound hs
  have h0 := BufReader.bound_ge (r := r) srem.length this
  rcases BufReader.bad_read_some hE hL (r.bound + 2) n [] r c srem hb hr hn ha hs hbad (by omega) with ⟨r', d, h⟩ | ⟨r', b, h1, h2, h3⟩
  · exact Or.inl ⟨d, by rw [BufReader.read, h]⟩
  · exact Or.inr ⟨r', b, by rw [BufReader.read, h1]; rfl, h2, h3⟩

/-- C08: with `raise_exceptions=True`, `read()` returns without raising only if the data
starts with a complete chunked body, and then returns its payload.  (The body is chunked in
the sense of `LooseBody`: size lines are whatever Python's `int(_, 16)` accepts.) -/
theorem C08_accepts_only_chunked (hE : ExactRead V) (hL : ExactLine V) (s : σ) (data : Bytes) (hs : V s data)
    (bs : Nat) (hb : 0 < bs) :
    ∃ r : BufReader σ, BufReader.newChunked s true bs = .ok r ∧
      ((∃ d, (r.read none).1 = .error (.chunkedData d)) ∨
       (∃ e p rest, data = e ++ rest ∧ LooseBody e p ∧ (r.read none).1 = .ok p)) := by
  rcases BufReader.good_or_bad (data.length + 1) data (by omega) with ⟨e, p, rest, h1, h2⟩ | hbad
  · obtain ⟨r, k1, k2, k3, k4⟩ := newChunked_base s true hb
    have hg : BufReader.Good V rest r p :=
      ⟨e ++ rest, _, k2, by rw [k3, ← h1]; exact hs, rfl, Or.inr ⟨rfl, e, p, h2, rfl, by rw [k4]; rfl⟩⟩
    obtain ⟨r1, m1, _⟩ := (BufReader.exactRead (BufReader.good_fillLaw hE hL rest)).read_none hg
    exact ⟨r, k1, Or.inr ⟨e, p, rest, h1, h2, congrArg Prod.fst m1⟩⟩
  · obtain ⟨r, k1, k2, _⟩ := badV_new s hs hbad hb
    exact ⟨r, k1, Or.inl (badV_read_none hE hL k2)⟩

theorem bad_of_cut {e p : Bytes} (h : ChunkedBody e p) : ∀ x : Bytes, x <+: e → x.length < e.length → BufReader.Bad x := by
  have noLf : ∀ {l x : Bytes} {n : Int}, LooseLine l n → x <+: l ++ crlf → x.length < (l ++ crlf).length → BufReader.Bad x := by
    intro l x n hl hx hxl
    have h10 : (10 : UInt8) ∉ x := by
      have : x <+: l ++ [13] := by
        have h1 : l ++ crlf = (l ++ [13]) ++ [10] := by simp
        rw [h1] at hx hxl
        exact List.prefix_of_prefix_length_le hx (List.prefix_append _ _) (by simp at hxl ⊢; omega)
      intro hm
      have := this.subset hm
      simp only [List.mem_append, List.mem_singleton] at this
      rcases this with h' | h'
      · exact hl.1 h'
      · exact absurd h' (by decide)
    have hc : BufReader.chunkSizeOf ((takeLine x).take 64) = none := by
      cases hc : BufReader.chunkSizeOf ((takeLine x).take 64) with
      | none => rfl
      | some n =>
        obtain ⟨l, t, h1, h2, _⟩ := line_of_chunkSizeOf hc
        exfalso; apply h10; rw [h1]; simp
    have : BufReader.stepRes true x = .bad [] (x.drop ((takeLine x).take 64).length) := by
      simp only [BufReader.stepRes, hc]
    exact .now this
  have pre : ∀ {x a b : Bytes}, x <+: a ++ b → a.length ≤ x.length → ∃ t, x = a ++ t ∧ t <+: b := by
    intro x a b hx hl
    obtain ⟨t, ht⟩ := List.prefix_of_prefix_length_le (List.prefix_append a b) hx hl
    refine ⟨t, ht.symm, ?_⟩
    rw [← ht] at hx
    exact (List.prefix_append_right_inj a).1 hx
  induction h with
  | @last l hl =>
    intro x hx hxl
    by_cases h1 : x.length < (l ++ crlf).length
    · exact noLf hl.loose (List.prefix_of_prefix_length_le hx (List.prefix_append _ _) (by omega)) h1
    · obtain ⟨t, rfl, ht⟩ := pre hx (by omega)
      have htl : t.length < 2 := by simp at hxl; omega
      have : BufReader.stepRes true (l ++ crlf ++ t) = .bad [] (t.drop 2) := by
        rw [BufReader.stepRes_line hl.loose, if_pos (show ((0 : Nat) : Int) = 0 from rfl), if_neg]
        intro h0
        have := congrArg List.length h0
        simp at this; omega
      exact .now this
  | @chunk l d e p hl hd _ ih =>
    intro x hx hxl
    have hdl := List.length_pos_iff.2 hd
    by_cases h1 : x.length < (l ++ crlf).length
    · refine noLf hl.loose (List.prefix_of_prefix_length_le hx ?_ (by omega)) h1
      rw [List.append_assoc, List.append_assoc]; exact List.prefix_append _ _
    · have hx' : x <+: (l ++ crlf) ++ (d ++ (crlf ++ e)) := by simpa using hx
      obtain ⟨t, rfl, ht⟩ := pre hx' (by omega)
      by_cases h2 : t.length < d.length
      · have : BufReader.stepRes true (l ++ crlf ++ t) = .bad t [] := by
          rw [BufReader.stepRes_line hl.loose, if_neg (by omega), if_pos (by simp only [len]; omega)]; rfl
        exact .now this
      · obtain ⟨u, rfl, hu⟩ := pre ht (by omega)
        by_cases h3 : u.length < 2
        · have : BufReader.stepRes true (l ++ crlf ++ (d ++ u)) = .bad d (u.drop 2) := by
            rw [BufReader.stepRes_line hl.loose, if_neg (by omega), if_neg (by simp only [len, List.length_append]; omega)]
            simp only [Int.toNat_natCast, List.drop_left, List.take_left]
            rw [if_neg]
            intro h0
            have := congrArg List.length h0
            simp at this; omega
          exact .now this
        · obtain ⟨v, rfl, hv⟩ := pre hu (by simpa using h3)
          have : BufReader.stepRes true (l ++ crlf ++ (d ++ (crlf ++ v))) = .data d v := by
            have e1 : l ++ crlf ++ (d ++ (crlf ++ v)) = l ++ crlf ++ d ++ crlf ++ v := by simp
            rw [e1]
            exact BufReader.stepRes_chunk hl.loose (by omega) rfl
          refine .later this (ih v hv ?_)
          simp at hxl; omega

/-- C08: a chunked body cut off at any point is never taken for a complete one: after any
number of successful `read(n)` calls, which were all full, `read()` raises. -/
theorem C08_cut_raises (hE : ExactRead V) (hL : ExactLine V) (s : σ) (e p x : Bytes) (h : ChunkedBody e p)
    (hx : x <+: e) (hxl : x.length < e.length) (hs : V s x) (bs : Nat) (hb : 0 < bs) (ns : List Nat) :
    ∃ r : BufReader σ, BufReader.newChunked s true bs = .ok r ∧
      ((∃ d, .error (.chunkedData d) ∈ (runCalls r (ns.map fun (n : Nat) => Call.read (some (n : Int)))).1) ∨
       (∃ ps : List Bytes, (runCalls r (ns.map fun (n : Nat) => Call.read (some (n : Int)))).1 = ps.map .ok ∧
         ps.map List.length = ns ∧
         ∃ d, ((runCalls r (ns.map fun (n : Nat) => Call.read (some (n : Int)))).2.read none).1 = .error (.chunkedData d))) := by
  obtain ⟨r, k1, k2, k3⟩ := badV_new s hs (bad_of_cut h x hx hxl) hb
  refine ⟨r, k1, ?_⟩
  clear k1 k3
  induction ns generalizing r with
  | nil => exact Or.inr ⟨[], rfl, rfl, badV_read_none hE hL k2⟩
  | cons n ns ih =>
    rcases badV_read_some hE hL k2 n with ⟨d, h1⟩ | ⟨r', b, h1, h2, h3⟩
    · left
      refine ⟨d, ?_⟩
      rw [← h1]
      simp only [List.map_cons, runCalls]
      exact List.mem_cons_self
    · have h1' : Call.run (Call.read (some (n : Int))) r = (.ok b, r') := h1
      simp only [List.map_cons, runCalls, h1']
      rcases ih r' h3 with ⟨d, g⟩ | ⟨ps, g1, g2, g3⟩
      · exact Or.inl ⟨d, List.mem_cons_of_mem _ g⟩
      · exact Or.inr ⟨b :: ps, by rw [g1]; rfl, by simp [h2, g2], g3⟩

end

open Toy in
/-- C08 on a body cut inside its second chunk. -/
example : ∃ (r : BufReader Bytes), BufReader.newChunked [49, 13, 10, 65, 13, 10, 50, 13, 10, 66] true = .ok r ∧
    (runCalls r [.read (some 1), .read (some 1)]).1 = [.ok [65], .error (.chunkedData [66])] := ⟨_, rfl, by decide⟩

end Warcio.Props
