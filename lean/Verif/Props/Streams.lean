import Verif.Proofs.Exact
import Verif.Toy

/-!
# Properties C01–C04: limited, buffered and decompressing readers

Specification used: `Call`, `runCalls`, `expectCalls` (`Verif/Spec/Streams.lean`) and
`LawfulGzip` (`Verif/Spec/Codec.lean`).
-/

namespace Warcio.Props

open Warcio

/-! ## C01 -/

/-- C01, over any stream that hands out leading bytes of its data and never more than asked
for.  Partial: length arguments must be `None` or non-negative (see
`C01_negative_length_exceeds_limit`). -/
theorem C01_limit_any_stream_partial {σ : Type} [PyStream σ] {V : σ → Bytes → Prop} (hV : Bounded V)
    (s : σ) (data : Bytes) (hs : V s data) (L : Nat) (cs : List Call) (hc : ∀ c ∈ cs, c.nonneg) :
    ∃ (ps : List Bytes) (r' : LimitReader σ), runCalls (LimitReader.mk' s L) cs = (ps.map .ok, r') ∧
      ps.flatten <+: data ∧ ps.flatten.length ≤ L ∧ PyStream.tell r' = len ps.flatten := by
  obtain ⟨ps, srem', r', h1, h2, _, h4, h5, h6⟩ :=
    LimitReader.calls_spec hV cs (r := LimitReader.mk' s L) hs (by simp [LimitReader.mk']) hc
  refine ⟨ps, r', h1, ⟨srem', h2.symm⟩, ?_, ?_⟩
  · simp only [LimitReader.mk', len] at h4; omega
  · simp only [PyStream.tell, LimitReader.tell, LimitReader.mk', len] at h4 h6 ⊢; omega

/-- C01 for a file, pipe or socket with any schedule of short reads.  Partial: no negative
length arguments. -/
theorem C01_limit_partial (f : FileObj) (L : Nat) (cs : List Call) (hc : ∀ c ∈ cs, c.nonneg) :
    ∃ (ps : List Bytes) (r' : LimitReader FileObj), runCalls (LimitReader.mk' f L) cs = (ps.map .ok, r') ∧
      ps.flatten <+: f.rest ∧ ps.flatten.length ≤ L ∧ PyStream.tell r' = len ps.flatten :=
  C01_limit_any_stream_partial FileObj.bounded f f.rest rfl L cs hc

/-- C01 is exact over a stream whose reads are exact: `read` on the limited stream is `read`
on the first `L` bytes. -/
theorem C01_limited_read_exact {σ : Type} [PyStream σ] {V : σ → Bytes → Prop} (hV : ExactRead V)
    (s : σ) (data : Bytes) (hs : V s data) (L : Nat) (n : Option Int) (hn : (Call.read n).nonneg) :
    ((LimitReader.mk' s L).read n).1 = .ok ((Call.read n).expect (data.take L)) := by
  obtain ⟨r', h1, _⟩ := LimitReader.read_exact hV (r := LimitReader.mk' s L) (rem := data.take L)
    ⟨data, hs, by simp [LimitReader.mk'], by simp [LimitReader.mk']⟩ n hn
  rw [h1]

/-- C01 fails for negative length arguments: `read(-1)` on a limit of 1 returns 3 bytes. -/
theorem C01_negative_length_exceeds_limit :
    ∃ (f : FileObj) (L : Nat) (n : Int) (b : Bytes),
      ((LimitReader.mk' f L).read (some n)).1 = .ok b ∧ L < b.length :=
  ⟨{ content := [1, 2, 3] }, 1, -1, [1, 2, 3], by decide⟩

/-- The hypotheses of C01 are met by a history with short reads that hits the limit. -/
example : (runCalls (LimitReader.mk' ({ content := [65, 10, 66, 67, 68], caps := [1] } : FileObj) 4)
    [.read (some 3), .readline none, .read none, .read (some 1)]).1 =
    [.ok [65], .ok [10], .ok [66, 67], .ok []] := by decide

/-! ## C02 -/

/-- C02: any history of `read(n)`, `read()` and `readline()` on a `BufferedReader` without
decompression returns what an ideal stream returns, for every block size and schedule of
short reads.  Partial: `readline(n)` with a length is not exact in general (see
`C02_readline_length_wrong`, and `C02_short_lines` for when it is). -/
theorem C02_buffered_partial [Zlib] (f : FileObj) (bs : Nat) (hb : 0 < bs) (cs : List Call)
    (hc : ∀ c ∈ cs, c.nonneg ∧ c.simple = true) :
    ∃ r, BufReader.new f bs = .ok r ∧ (runCalls r cs).1 = (expectCalls f.rest cs).1.map .ok := by
  obtain ⟨r, h1, h2⟩ := BufReader.plain_new (V := FileObj.View) f rfl hb
  obtain ⟨r', h3, _⟩ := (BufReader.exactRead (BufReader.plain_fillLaw FileObj.shortRead)).calls cs h2 hc
  exact ⟨r, h1, by rw [h3]⟩

/-- C02 for `readline(n)` too, when the source's reads are full and no line is longer than the
block size. -/
theorem C02_short_lines [Zlib] (f : FileObj) (hf : f.caps = []) (bs : Nat) (hb : 0 < bs)
    (hl : linesWithin bs f.rest) (cs : List Call) (hc : ∀ c ∈ cs, c.nonneg) :
    ∃ r, BufReader.new f bs = .ok r ∧ (runCalls r cs).1 = (expectCalls f.rest cs).1.map .ok := by
  obtain ⟨r, h1, h2⟩ := BufReader.plain_new (V := FileObj.FullView) f ⟨rfl, hf⟩ hb
  obtain ⟨r', h3, _⟩ := BufReader.calls_exact (BufReader.plain_fillLaw FileObj.fullView_shortRead)
    (A := linesWithin bs) (fun k h => h.drop k)
    (fun h hA => BufReader.plain_twoBuf FileObj.fullView_shortRead FileObj.fullRead h
      (by have := hA 0; rw [h.cond]; simpa using this)) cs h2 hl hc
  exact ⟨r, h1, by rw [h3]⟩

/-- With a length, `readline(n)` still returns a non-empty leading part of the next line, of
at most `n` bytes, and what follows is not lost. -/
theorem C02_readline_length_short [Zlib] (f : FileObj) (bs : Nat) (hb : 0 < bs) (n : Nat) (hn : 0 < n)
    (hne : f.rest ≠ []) :
    ∃ r r' b, BufReader.new f bs = .ok r ∧ r.readline (some (n : Int)) = (.ok b, r') ∧ b ≠ [] ∧
      b.length ≤ n ∧ b <+: takeLine f.rest ∧ (r'.read none).1 = .ok (f.rest.drop b.length) := by
  obtain ⟨r, h1, h2⟩ := BufReader.plain_new (V := FileObj.View) f rfl hb
  have hE := BufReader.exactRead (BufReader.plain_fillLaw FileObj.shortRead.short (Q := (· = bs)))
  obtain ⟨k, r', k1, k2, k3, k4, k5⟩ := hE.readline_some h2 n
  obtain ⟨r'', m1, _⟩ := hE.read_none k5
  have hk0 : k ≠ 0 := fun h0 => hne (k3 hn h0)
  have hlen := takeLine_length_le f.rest
  refine ⟨r, r', f.rest.take k, h1, k4, ?_, ?_, ?_, ?_⟩
  · intro h0
    rw [List.take_eq_nil_iff] at h0
    rcases h0 with h | h
    · exact hk0 h
    · exact hne h
  · rw [List.length_take]; omega
  · refine ⟨(takeLine f.rest).drop k, ?_⟩
    have : f.rest.take k = (takeLine f.rest).take k := by
      conv => rhs; rw [← take_takeLine_length f.rest, List.take_take, Nat.min_eq_left k1]
    rw [this, List.take_append_drop]
  · have : (f.rest.take k).length = k := by rw [List.length_take]; omega
    rw [this]
    exact congrArg Prod.fst m1

open Toy in
/-- C02 fails for `readline(n)`: on the line `abcdefghi\n` with block size 1, `readline(10)`
returns `abcd`, because the length already used is subtracted again in every round. -/
theorem C02_readline_length_wrong :
    ∃ (f : FileObj) (r : BufReader FileObj), BufReader.new f 1 = .ok r ∧
      (r.readline (some 10)).1 = .ok [97, 98, 99, 100] ∧
      (Call.readline (some 10)).expect f.rest = [97, 98, 99, 100, 101, 102, 103, 104, 105, 10] :=
  ⟨{ content := [97, 98, 99, 100, 101, 102, 103, 104, 105, 10] }, _, rfl, by decide, by decide⟩

open Toy in
/-- The hypotheses of C02 are met by a history over a short-reading source. -/
example : ∃ r, BufReader.new ({ content := [65, 10, 66, 67], caps := [1, 1] } : FileObj) 3 = .ok r ∧
    (runCalls r [.readline none, .read (some 1), .read none]).1 = [.ok [65, 10], .ok [66], .ok [67]] :=
  ⟨_, rfl, by decide⟩

example : linesWithin 4 [65, 66, 10, 67, 68, 69] := by
  intro k
  match k with
  | 0 => decide
  | 1 => decide
  | 2 => decide
  | k + 3 =>
    have := takeLine_length_le ([65, 66, 10, 67, 68, 69].drop (k + 3))
    simp only [List.length_drop] at this
    have h6 : ([65, 66, 10, 67, 68, 69] : Bytes).length = 6 := rfl
    omega

/-! ## C03 -/

/-- A user's session on a reader over several gzip members: for each member a history of
calls, then `read()` and a `readline()` that finds the end, then `read_next_member()`. -/
def memberSession [Zlib] : BufReader FileObj → List (List Call) → List (List (Except PyErr Bytes) × Bool)
  | _, [] => []
  | r, cs :: css =>
    let (res, r) := runCalls r cs
    let (all, r) := r.read none
    let (fin, r) := r.readline none
    let (more, r) := r.readNextMember
    (res ++ [all, fin], more) :: (if more then memberSession r css else [])

/-- What the session returns when each member behaves as an ideal stream of its data and
`read_next_member` tells whether there is another member. -/
def expectSession : List Bytes → List (List Call) → List (List (Except PyErr Bytes) × Bool)
  | d :: ds, cs :: css =>
    let e := expectCalls d cs
    (e.1.map .ok ++ [.ok e.2, .ok []], !ds.isEmpty) :: expectSession ds css
  | _, _ => []

theorem memberSession_spec [Zlib] {IsMember : Bytes → Bytes → Prop} (L : LawfulGzip IsMember)
    {V : FileObj → Bytes → Prop} (hV : ShortRead V) {P : Bytes → Nat → Prop} {bs : Nat} {C : Call → Prop} {A : Bytes → Prop}
    (hP : ∀ z b, P z b → b = bs)
    (hcalls : ∀ {rest : Bytes} (cs : List Call) {r : BufReader FileObj} {rem : Bytes},
      BufReader.Gz L V P rest r rem → A rem → (∀ c ∈ cs, C c) →
      ∃ r', runCalls r cs = ((expectCalls rem cs).1.map .ok, r') ∧
        BufReader.Gz L V P rest r' (expectCalls rem cs).2) :
    ∀ (ms : List (Bytes × Bytes)) (css : List (List Call)) (z d : Bytes) (cs : List Call) (r : BufReader FileObj),
    (∀ m ∈ ms, IsMember m.1 m.2 ∧ P m.1 bs ∧ A m.2) → A d → (∀ cs ∈ css, ∀ c ∈ cs, C c) → (∀ c ∈ cs, C c) →
    css.length = ms.length →
    BufReader.Gz L V P (ms.map (·.1)).flatten r d →
    memberSession r (cs :: css) = expectSession (d :: ms.map (·.2)) (cs :: css) := by
  intro ms
  induction ms with
  | nil =>
    intro css z d cs r _ hA hcss hcs hlen hr
    have hE := BufReader.exactRead (BufReader.gz_fillLaw L hV.short P (σ := FileObj) [])
    obtain ⟨r1, h1, h2⟩ := hcalls cs hr hA hcs
    obtain ⟨r2, h3, h4⟩ := hE.read_none h2
    have h3' : r1.read none = (.ok (expectCalls d cs).2, r2) := h3
    obtain ⟨r3, h5, h6⟩ := BufReader.gz_readline_end L hV h4
    rcases BufReader.gzEnd_next (P := P) L h6 with ⟨_, h7⟩ | ⟨h7, _⟩
    · have : css = [] := List.length_eq_zero_iff.1 hlen
      subst this
      simp [memberSession, expectSession, h1, h3', h5, h7]
    · simp at h7
  | cons m ms ih =>
    intro css z d cs r hms hA hcss hcs hlen hr
    have hE := BufReader.exactRead (BufReader.gz_fillLaw L hV.short P (σ := FileObj) ((m :: ms).map (·.1)).flatten)
    obtain ⟨r1, h1, h2⟩ := hcalls cs hr hA hcs
    obtain ⟨r2, h3, h4⟩ := hE.read_none h2
    have h3' : r1.read none = (.ok (expectCalls d cs).2, r2) := h3
    obtain ⟨r3, h5, h6⟩ := BufReader.gz_readline_end L hV h4
    have hm := hms m (by simp)
    have hmag : m.1 ≠ [] := by
      obtain ⟨t, ht⟩ := L.magic hm.1
      rw [← ht]; simp
    rcases BufReader.gzEnd_next (P := P) L h6 with ⟨h7, _⟩ | ⟨_, r4, h8, h9⟩
    · simp [hmag] at h7
    · match css, hlen with
      | cs' :: css', hlen =>
        obtain ⟨n, hn⟩ := h6.prev
        have hbs : r3.blockSize = bs := hP _ _ hn
        have h10 : BufReader.Gz L V P (ms.map (·.1)).flatten r4 m.2 := by
          apply h9 m.1 m.2 _ (by simp) (L.holds hm.1 _)
          rw [hbs]; exact hm.2.1
        have := ih css' m.1 m.2 cs' r4 (fun x hx => hms x (by simp [hx])) hm.2.2 (fun x hx => hcss x (by simp [hx]))
          (hcss cs' (by simp)) (by simpa using hlen) h10
        rw [memberSession, h1]
        simp only [h3', h5, h8, if_true]
        rw [this]
        simp [expectSession]

/-- C03: whatever is called on each member, and however the raw data arrives, the session
over any sequence of gzip members returns each member's data, with nothing lost or repeated.
Partial: as in C02, `readline(n)` with a length is left out (see `C03_steady`). -/
theorem C03_members_partial [Zlib] {IsMember : Bytes → Bytes → Prop} (L : LawfulGzip IsMember)
    (m : Bytes × Bytes) (ms : List (Bytes × Bytes)) (hms : ∀ x ∈ m :: ms, IsMember x.1 x.2)
    (f : FileObj) (hf : f.rest = ((m :: ms).map (·.1)).flatten) (bs : Nat) (hb : 0 < bs)
    (css : List (List Call)) (hlen : css.length = (m :: ms).length)
    (hc : ∀ cs ∈ css, ∀ c ∈ cs, c.nonneg ∧ c.simple = true) :
    ∃ r, BufReader.new f bs (some .gzip) = .ok r ∧
      memberSession r css = expectSession ((m :: ms).map (·.2)) css := by
  match css, hlen with
  | cs :: css, hlen =>
    obtain ⟨r, h1, h2⟩ := BufReader.gz_new L (V := FileObj.View) (P := fun _ b => b = bs) f
      (z := m.1) (d := m.2) (rest := (ms.map (·.1)).flatten) (L.holds (hms m (by simp)) _) (by simpa [FileObj.View] using hf) hb rfl
    refine ⟨r, h1, ?_⟩
    exact memberSession_spec L FileObj.shortRead (bs := bs) (C := fun c => c.nonneg ∧ c.simple = true) (A := fun _ => True) (fun _ _ h => h)
      (fun cs _ _ hr _ hcs => (BufReader.exactRead (BufReader.gz_fillLaw L FileObj.shortRead _ _)).calls cs hr hcs)
      ms css m.1 m.2 cs r (fun x hx => ⟨hms x (by simp [hx]), rfl, trivial⟩) trivial (fun x hx => hc x (by simp [hx]))
      (hc cs (by simp)) (by simpa using hlen) h2

/-- C03 for all calls, `readline(n)` included, when reads are full, no line is longer than `k` bytes and
the members are decompressed steadily: once a member has been begun, a block gives nothing or at least `k` bytes. -/
theorem C03_steady [Zlib] {IsMember : Bytes → Bytes → Prop} (L : LawfulGzip IsMember)
    (m : Bytes × Bytes) (ms : List (Bytes × Bytes)) (bs k : Nat) (hb : 0 < bs)
    (hms : ∀ x ∈ m :: ms, IsMember x.1 x.2 ∧ Steady bs k x.1 ∧ linesWithin k x.2)
    (f : FileObj) (hf : f.rest = ((m :: ms).map (·.1)).flatten) (hcaps : f.caps = [])
    (css : List (List Call)) (hlen : css.length = (m :: ms).length)
    (hc : ∀ cs ∈ css, ∀ c ∈ cs, c.nonneg) :
    ∃ r, BufReader.new f bs (some .gzip) = .ok r ∧
      memberSession r css = expectSession ((m :: ms).map (·.2)) css := by
  match css, hlen with
  | cs :: css, hlen =>
    obtain ⟨r, h1, h2⟩ := BufReader.gz_new L (V := FileObj.FullView) (P := fun z b => BufReader.SteadyAt k z b ∧ b = bs) f
      (z := m.1) (d := m.2) (rest := (ms.map (·.1)).flatten) (L.holds (hms m (by simp)).1 _)
      (by exact ⟨by simpa using hf, hcaps⟩) hb ⟨(hms m (by simp)).2.1, rfl⟩
    refine ⟨r, h1, ?_⟩
    exact memberSession_spec L FileObj.fullView_shortRead (bs := bs) (C := fun c => c.nonneg) (A := linesWithin k) (fun _ _ h => h.2)
      (fun cs _ _ hr hA hcs => BufReader.calls_exact (BufReader.gz_fillLaw L FileObj.fullView_shortRead _ _)
        (A := linesWithin k) (fun k h => h.drop k)
        (fun h hA => BufReader.gz_twoBuf L FileObj.fullView_shortRead FileObj.fullRead (h.weaken (fun _ _ h => h.1)) (by simpa using hA 0))
        cs hr hA hcs)
      ms css m.1 m.2 cs r (fun x hx => ⟨(hms x (by simp [hx])).1, ⟨(hms x (by simp [hx])).2.1, rfl⟩, (hms x (by simp [hx])).2.2⟩)
      (hms m (by simp)).2.2 (fun x hx => hc x (by simp [hx])) (hc cs (by simp)) (by simpa using hlen) h2

/-- C03 for all calls, `readline(n)` included, when reads are full and every member fits a
block. -/
theorem C03_small_members [Zlib] {IsMember : Bytes → Bytes → Prop} (L : LawfulGzip IsMember)
    (m : Bytes × Bytes) (ms : List (Bytes × Bytes)) (bs : Nat) (hb : 0 < bs)
    (hms : ∀ x ∈ m :: ms, IsMember x.1 x.2 ∧ x.1.length ≤ bs)
    (f : FileObj) (hf : f.rest = ((m :: ms).map (·.1)).flatten) (hcaps : f.caps = [])
    (css : List (List Call)) (hlen : css.length = (m :: ms).length)
    (hc : ∀ cs ∈ css, ∀ c ∈ cs, c.nonneg) :
    ∃ r, BufReader.new f bs (some .gzip) = .ok r ∧
      memberSession r css = expectSession ((m :: ms).map (·.2)) css := by
  have hle : ∀ x ∈ m :: ms, x.2.length ≤ ((m :: ms).map (·.2)).flatten.length := by
    intro x hx
    obtain ⟨s, t, e⟩ := List.append_of_mem hx
    rw [e]
    simp only [List.map_append, List.map_cons, List.flatten_append, List.flatten_cons, List.length_append]
    omega
  exact C03_steady L m ms bs ((m :: ms).map (·.2)).flatten.length hb
    (fun x hx => ⟨(hms x hx).1, steady_of_le (hms x hx).2, linesWithin_of_length (hle x hx)⟩) f hf hcaps css hlen hc

/-- The end of a member is found exactly: after its data has been read, the position of the
file minus what the reader has not used is the member's end, whatever follows it. -/
theorem C03_boundary [Zlib] {IsMember : Bytes → Bytes → Prop} (L : LawfulGzip IsMember)
    (z d rest : Bytes) (hm : IsMember z d) (f : FileObj) (hf : f.rest = z ++ rest) (bs : Nat) (hb : 0 < bs)
    (cs : List Call) (hc : ∀ c ∈ cs, c.nonneg ∧ c.simple = true) :
    ∃ r, BufReader.new f bs (some .gzip) = .ok r ∧
      ∃ r', ((runCalls r cs).2.read none) = (.ok (expectCalls d cs).2, r') ∧
        (r'.readline none).1 = .ok [] ∧
        ((r'.readline none).2.stream.pos : Int) - (r'.readline none).2.remLength = f.pos + len z := by
  let V : FileObj → Bytes → Prop := fun g rem => g.rest = rem ∧ PyStream.tell g + len rem = f.pos + len f.rest
  have hV : ShortRead V := FileObj.shortRead.withTell _
  obtain ⟨r, h1, h2⟩ := BufReader.gz_new L (V := V) (P := fun _ b => b = bs) f
    (z := z) (d := d) (rest := rest) (L.holds hm _) ⟨hf, by rw [hf]; rfl⟩ hb rfl
  have hE := BufReader.exactRead (BufReader.gz_fillLaw L hV.short (fun _ b => b = bs) rest)
  obtain ⟨r1, k1, k2⟩ := hE.calls cs h2 hc
  obtain ⟨r2, k3, k4⟩ := hE.read_none k2
  obtain ⟨r3, k5, k6⟩ := BufReader.gz_readline_end L hV k4
  refine ⟨r, h1, r2, by rw [k1]; exact k3, by rw [k5], ?_⟩
  rw [k5]
  obtain ⟨srem, ⟨_, hs⟩, hrest⟩ := k6.split
  rw [BufReader.remLength_noBuff k6.buff]
  have e1 : len f.rest = len z + len rest := by rw [hf]; simp [len]
  have e2 : len rest = len r3.unused + len srem := by rw [hrest]; simp [len]
  simp only [PyStream.tell] at hs
  simp only
  omega

section
open Toy
/-- The hypotheses of `C03_steady` are met by members longer than a block. -/
example : (∀ x ∈ [(compress [65, 66, 10, 67, 68, 69, 70, 71, 72, 10], [65, 66, 10, 67, 68, 69, 70, 71, 72, 10]), (compress [67], [67])],
      IsMember x.1 x.2 ∧ Steady 17 7 x.1 ∧ linesWithin 7 x.2) ∧ (compress [65, 66, 10, 67, 68, 69, 70, 71, 72, 10]).length = 23 := by
  refine ⟨fun x hx => ?_, by decide⟩
  rcases List.mem_cons.1 hx with rfl | hx
  · refine ⟨rfl, toy_steady (by decide), fun k => ?_⟩
    by_cases hk : k < 10
    · revert k; decide
    · rw [List.drop_eq_nil_of_le (by simp; omega)]; decide
  · rw [List.mem_singleton.1 hx]
    exact ⟨rfl, toy_steady (by decide), linesWithin_of_length (by decide)⟩

/-- The hypotheses of C03 are met: two members, the raw data arriving byte by byte at first. -/
example : ∃ r, BufReader.new ({ content := compress [65, 10, 66] ++ compress [67], caps := [1, 1, 3] } : FileObj) 5
      (some .gzip) = .ok r ∧
    memberSession r [[.readline none], [.read (some 5)]] =
      [([.ok [65, 10], .ok [66], .ok []], true), ([.ok [67], .ok [], .ok []], false)] := ⟨_, rfl, by decide⟩
end

/-! ## C04 -/

/-- C04: data not beginning with the gzip magic passes through unchanged.  Partial: the first
raw read must deliver at least two bytes (block size at least 2, no one-byte first read, at
least two bytes of data), see `C04_one_byte_lost`; and `readline(n)` is left out, as in C02. -/
theorem C04_passthrough_partial [Zlib] {IsMember : Bytes → Bytes → Prop} (L : LawfulGzip IsMember)
    (f : FileObj) (hm : ¬ [0x1f, 0x8b] <+: f.rest) (hl : f.rest ≠ [] → 2 ≤ f.rest.length)
    (hcap : ∀ c, f.caps.head? = some c → 2 ≤ c) (bs : Nat) (hb : 2 ≤ bs)
    (cs : List Call) (hc : ∀ c ∈ cs, c.nonneg ∧ c.simple = true) :
    ∃ r, BufReader.new f bs (some .gzip) = .ok r ∧ (runCalls r cs).1 = (expectCalls f.rest cs).1.map .ok := by
  obtain ⟨r, h1, h2⟩ := BufReader.fresh_new L (V := FileObj.View) f (rem := f.rest) rfl (bs := bs) (by omega)
    (FileObj.first_read hb hcap hl hm)
  obtain ⟨r', h3, _⟩ := (BufReader.exactRead (BufReader.freshPlain_fillLaw L FileObj.shortRead)).calls cs h2 hc
  exact ⟨r, h1, by rw [h3]⟩

/-- C04 for all calls, when reads are full and no line is longer than a block. -/
theorem C04_passthrough_short_lines [Zlib] {IsMember : Bytes → Bytes → Prop} (L : LawfulGzip IsMember)
    (f : FileObj) (hm : ¬ [0x1f, 0x8b] <+: f.rest) (hl : f.rest ≠ [] → 2 ≤ f.rest.length)
    (hcap : f.caps = []) (bs : Nat) (hb : 2 ≤ bs) (hlines : linesWithin bs f.rest)
    (cs : List Call) (hc : ∀ c ∈ cs, c.nonneg) :
    ∃ r, BufReader.new f bs (some .gzip) = .ok r ∧ (runCalls r cs).1 = (expectCalls f.rest cs).1.map .ok := by
  obtain ⟨r, h1, h2⟩ := BufReader.fresh_new L (V := FileObj.FullView) f (rem := f.rest) ⟨rfl, hcap⟩ (bs := bs) (by omega)
    (FileObj.first_read hb (by simp [hcap]) hl hm)
  obtain ⟨r', h3, _⟩ := BufReader.calls_exact (BufReader.freshPlain_fillLaw L FileObj.fullView_shortRead)
    (A := linesWithin bs) (fun k h => h.drop k)
    (fun {r rem} h hA => BufReader.freshPlain_twoBuf L FileObj.fullView_shortRead FileObj.fullRead h
      (by
        have hbs : r.blockSize = bs := by rcases h with h | h <;> exact h.cond
        have := hA 0; rw [hbs]; simpa using this)) cs h2 hlines hc
  exact ⟨r, h1, by rw [h3]⟩

/-- C04 fails for a file of one byte: the byte is lost. -/
theorem C04_one_byte_lost [Zlib] {IsMember : Bytes → Bytes → Prop} (L : LawfulGzip IsMember)
    (b : UInt8) (bs : Nat) (hb : 0 < bs) :
    ∃ r, BufReader.new ({ content := [b] } : FileObj) bs (some .gzip) = .ok r ∧ (r.read none).1 = .ok [] := by
  obtain ⟨o1, o2⟩ := L.oneByte b
  have hbs : ¬ ((bs : Int) < 0) := by omega
  have hbs0 : ¬ ((bs : Int) = 0) := by omega
  have ht : List.take bs [b] = [b] := List.take_of_length_le (by simp; omega)
  have hr1 : PyStream.read ({ content := [b] } : FileObj) (some (bs : Int)) = (.ok [b], { content := [b], pos := 1 }) := by
    simp only [PyStream.read, FileObj.read, hbs, hbs0, if_false, FileObj.rest, List.drop_zero, Int.toNat_natCast, ht]
    rfl
  have hr2 : PyStream.read ({ content := [b], pos := 1 } : FileObj) (some (bs : Int)) =
      (.ok [], { content := [b], pos := 1 }) := by
    simp [PyStream.read, FileObj.read, hbs, FileObj.rest]
  let r0 : BufReader FileObj := BufReader.mk { content := [b] } bs (some .gzip) (some { kind := .gzip })
    none none 0 0 false none
  let r1 : BufReader FileObj := BufReader.mk { content := [b], pos := 1 } bs (some .gzip)
    (some { kind := .gzip, hist := [[b]] }) none none 0 0 false none
  refine ⟨r0, by simp [BufReader.new, L.codec_eq, r0], ?_⟩
  have hfill : r0.fillbuff = (.ok (), r1) := by
    simp [r0, r1, BufReader.fillbuff, BufReader.baseFill, BufReader.empty, BufReader.noBuff, BufReader.remLength, BufReader.unused,
      Decompressor.unused, L.codec_eq, L.unused_nil, BufReader.nextData, BufReader.readStream, hr1, BufReader.processRead,
      BufReader.decompress, BufReader.feed, o1, BufReader.fillLoop, o2, hr2, PyStream.bound, FileObj.rest]
  simp [BufReader.read, BufReader.readLoop, BufReader.wantsMore, hfill, BufReader.empty, BufReader.noBuff, r1]

open Toy in
/-- C04 fails for longer data, too, if the first raw read delivers one byte. -/
theorem C04_first_byte_lost :
    ∃ (f : FileObj) (r : BufReader FileObj), f.rest = [65, 66, 67] ∧ BufReader.new f 16384 (some .gzip) = .ok r ∧
      (r.read none).1 = .ok [66, 67] :=
  ⟨{ content := [65, 66, 67], caps := [1] }, _, by decide, rfl, by decide⟩

open Toy in
/-- The hypotheses of C04 are met by a plain file in several blocks. -/
example : ∃ r, BufReader.new ({ content := [65, 10, 66, 67, 68], caps := [2, 1] } : FileObj) 3 (some .gzip) = .ok r ∧
    (runCalls r [.readline none, .read (some 2), .read none]).1 = [.ok [65, 10], .ok [66, 67], .ok [68]] :=
  ⟨_, rfl, by decide⟩

end Warcio.Props
