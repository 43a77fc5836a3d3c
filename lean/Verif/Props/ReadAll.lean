import Verif.Proofs.ReadAllBlock
import Verif.Toy

/-!
# Property C05: `read_all_members`

A file of gzip members is a list `ms` of pairs (raw member, its data).  The expected result
is the concatenation of the data.
-/

namespace Warcio.Props

open Warcio

theorem allNew [Zlib] {IsMember : Bytes → Bytes → Prop} (L : LawfulGzip IsMember)
    (m : Bytes × Bytes) (ms : List (Bytes × Bytes)) (hms : ∀ x ∈ m :: ms, IsMember x.1 x.2)
    (f : FileObj) (hf : f.rest = ((m :: ms).map (·.1)).flatten) (bs : Nat) (hb : 0 < bs) :
    ∃ r, BufReader.new f bs (some .gzip) true = .ok r ∧
      BufReader.GzAll L FileObj.View ms.length r ((m :: ms).map (·.2)).flatten := by
  refine ⟨{ stream := f, blockSize := bs, decompType := some .gzip, decompressor := some { kind := .gzip }, readAllMembers := true }, by simp [BufReader.new, L.codec_eq], f.rest, rfl, rfl, rfl, hb, rfl, [], m.1, m.2, [], m.2, ms, rfl,
    by simp, hms m (by simp), rfl, rfl, fun x hx => hms x (by simp [hx]), ?_, ?_, Or.inl rfl, rfl⟩
  · simp [hf]
  · simp

theorem readsWeak [Zlib] {W : Nat → BufReader FileObj → Bytes → Prop} (hW : BufReader.WeakFill W) :
    ∀ (ns : List Nat) (k : Nat) (r : BufReader FileObj) (rem : Bytes), W k r rem →
    ∃ (ps : List Bytes) (r' : BufReader FileObj) (rem' : Bytes) (k' : Nat),
      runCalls r (ns.map (fun (n : Nat) => Call.read (some (n : Int)))) = (ps.map .ok, r') ∧
      rem = ps.flatten ++ rem' ∧ W k' r' rem' ∧
      ((∀ n ∈ ns, 0 < n) → rem' = [] ∨ rem'.length + k' + ns.length ≤ rem.length + k) := by
  intro ns
  induction ns with
  | nil => intro k r rem h; exact ⟨[], r, rem, k, rfl, rfl, h, fun _ => Or.inr (by simp)⟩
  | cons n ns ih =>
    intro k r rem h
    obtain ⟨r1, j, k1, h1, h2, h3, h4, h5, h6⟩ := BufReader.read_weak hW h n
    obtain ⟨ps, r2, rem2, k2, g1, g2, g3, g4⟩ := ih k1 r1 _ h2
    refine ⟨rem.take j :: ps, r2, rem2, k2, ?_, ?_, g3, ?_⟩
    · have h1' : Call.run (Call.read (some (n : Int))) r = (.ok (rem.take j), r1) := h1
      simp [runCalls, h1', g1]
    · rw [List.flatten_cons, List.append_assoc, ← g2, List.take_append_drop]
    · intro hpos
      rcases g4 (fun x hx => hpos x (by simp [hx])) with g | g
      · exact Or.inl g
      · have hn := hpos n (by simp)
        have hl : (rem.drop j).length + j = rem.length := by simp; omega
        by_cases hj : j < n
        · rcases h6 hj with h7 | h7
          · left
            rw [h7] at g2
            exact (List.append_eq_nil_iff.1 g2.symm).2
          · right; simp only [List.length_cons]; omega
        · right; simp only [List.length_cons]; omega

/-- C05, for any schedule of raw reads, any block size and any sequence of read sizes: the
results are consecutive parts of the members' contents, nothing is lost, repeated or
reordered and nothing raises; and once enough reads have been made — as many as there are
bytes and further members — everything has been delivered.  Partial: a read can come out
short, even empty, before the end (see `C05_stops_early`), so the *first empty result* is not
always the end; `C05_one_block` gives a case in which it is. -/
theorem C05_all_members_partial [Zlib] {IsMember : Bytes → Bytes → Prop} (L : LawfulGzip IsMember)
    (m : Bytes × Bytes) (ms : List (Bytes × Bytes)) (hms : ∀ x ∈ m :: ms, IsMember x.1 x.2)
    (f : FileObj) (hf : f.rest = ((m :: ms).map (·.1)).flatten) (bs : Nat) (hb : 0 < bs) (ns : List Nat) :
    ∃ r, BufReader.new f bs (some .gzip) true = .ok r ∧
      ∃ ps : List Bytes, (runCalls r (ns.map (fun (n : Nat) => Call.read (some (n : Int))))).1 = ps.map .ok ∧
        ps.flatten <+: ((m :: ms).map (·.2)).flatten ∧
        ((∀ n ∈ ns, 0 < n) → ((m :: ms).map (·.2)).flatten.length + ms.length ≤ ns.length →
          ps.flatten = ((m :: ms).map (·.2)).flatten) := by
  obtain ⟨r, h1, h2⟩ := allNew L m ms hms f hf bs hb
  obtain ⟨ps, r', rem', k', g1, g2, g3, g4⟩ := readsWeak (BufReader.gzAll_weakFill L FileObj.shortRead) ns _ r _ h2
  refine ⟨r, h1, ps, by rw [g1], ⟨rem', g2.symm⟩, ?_⟩
  intro hpos hlen
  have : rem' = [] := by
    rcases g4 hpos with g | g
    · exact g
    · exact List.length_eq_zero_iff.1 (by omega)
  rw [this, List.append_nil] at g2
  exact g2.symm

/-- C05 in full for a file that is read in one block and has no empty member: every history
of `read` and `readline()` calls behaves as on an ideal stream of the concatenated contents;
in particular the first empty result of `read(n)` is the end. -/
theorem C05_one_block [Zlib] {IsMember : Bytes → Bytes → Prop} (L : LawfulGzip IsMember)
    (m : Bytes × Bytes) (ms : List (Bytes × Bytes)) (hms : ∀ x ∈ m :: ms, IsMember x.1 x.2 ∧ x.2 ≠ [])
    (f : FileObj) (hf : f.rest = ((m :: ms).map (·.1)).flatten) (hcaps : f.caps = []) (bs : Nat) (hb : 0 < bs)
    (hfit : f.rest.length ≤ bs) (cs : List Call) (hc : ∀ c ∈ cs, c.nonneg ∧ c.simple = true) :
    ∃ r, BufReader.new f bs (some .gzip) true = .ok r ∧
      (runCalls r cs).1 = (expectCalls ((m :: ms).map (·.2)).flatten cs).1.map .ok := by
  have hnew : ∃ r, BufReader.new f bs (some .gzip) true = .ok r ∧
      BufReader.OneBlock L FileObj.FullView r ((m :: ms).map (·.2)).flatten := by
    refine ⟨_, by simp [BufReader.new, L.codec_eq]; rfl, rfl, rfl, hb, rfl, [], f.rest, m :: ms, rfl, ⟨rfl, hcaps⟩, hms, ?_,
      Or.inl ⟨rfl, rfl, ?_, hfit, Or.inl rfl, by simp⟩⟩
    · simp
    · simpa using hf
  obtain ⟨r, h1, h2⟩ := hnew
  obtain ⟨r', h3, _⟩ :=
    (BufReader.exactRead (BufReader.oneBlock_fillLaw L FileObj.fullView_shortRead FileObj.fullRead)).calls cs h2 hc
  exact ⟨r, h1, by rw [h3]⟩

open Toy in
/-- C05 fails when a member is empty: `read()` returns nothing although a member with data
follows. -/
theorem C05_stops_early :
    ∃ (f : FileObj) (r : BufReader FileObj), f.rest = compress [] ++ compress [65] ∧
      BufReader.new f 16384 (some .gzip) true = .ok r ∧ (r.read none).1 = .ok [] ∧
      ((r.read none).2.read none).1 = .ok [65] :=
  ⟨{ content := compress [] ++ compress [65] }, _, by decide, rfl, by decide, by decide⟩

open Toy in
/-- It also fails, without any empty member, when the end of a member and the start of the
next arrive together in a later block. -/
theorem C05_stops_early_nonempty :
    ∃ (f : FileObj) (r : BufReader FileObj), f.rest = compress [66] ++ compress [65] ∧
      BufReader.new f 4 (some .gzip) true = .ok r ∧ (r.read none).1 = .ok [66] ∧
      ((r.read none).2.read none).1 = .ok [65] :=
  ⟨{ content := compress [66] ++ compress [65] }, _, by decide, rfl, by decide, by decide⟩

open Toy in
/-- The hypotheses of C05 are met: three members, one empty, arriving in pieces. -/
example : ∃ r, BufReader.new ({ content := compress [65, 66] ++ (compress [] ++ compress [67]), caps := [1, 3] } : FileObj) 5
      (some .gzip) true = .ok r ∧
    (runCalls r [.read (some 1), .read (some 3), .read (some 3), .read (some 3), .read (some 3)]).1 =
      [.ok [65], .ok [66], .ok [67], .ok [], .ok []] := ⟨_, rfl, by decide⟩

open Toy in
example : ∃ r, BufReader.new ({ content := compress [65, 10] ++ compress [67] } : FileObj) 50 (some .gzip) true = .ok r ∧
    (runCalls r [.read (some 1), .readline none, .read none]).1 = [.ok [65], .ok [10], .ok [67]] := ⟨_, rfl, by decide⟩

end Warcio.Props
