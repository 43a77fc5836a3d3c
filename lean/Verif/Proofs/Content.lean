import Verif.Proofs.Decode
import Verif.Proofs.Ready
import Verif.Proofs.Rewrite

/-! # Content streams -/

set_option linter.unusedSectionVars false

namespace Warcio
namespace ArchiveIter

variable {σ : Type} [Zlib] [PyStream σ] [Hashlib] [PyUni]
variable {multi : Bool} {last : Option PyErr} {it : ArchiveIter σ} {e : Expected} {left : Bytes} {es : List Expected}

/-- The stream of the current record holds these bytes. -/
def RawView (multi : Bool) (last : Option PyErr) (it : ArchiveIter σ) (e : Expected) (es : List Expected) (raw : RawStream (BufReader σ)) (rem : Bytes) : Prop :=
  Now multi last { it with raw := raw } e rem es

theorem rawView_gets : Gets (RawView multi last it e es) where
  read_some := by
    intro raw rem h n
    obtain ⟨raw', k1, k2⟩ := Now.read h (n := (n : Int)) (by omega)
    exact ⟨raw', k1, k2⟩
  bound := by intro raw rem h; exact Now.bound h

theorem rawView_line : LineLaw (RawView multi last it e es) e.line := by
  intro raw rem h hm hl n
  obtain ⟨v, it', left', k1, k2, k3⟩ := Now.op h (op := .call (.readline (some (n : Int)))) ⟨by intro k hk; cases hk; omega, fun _ h => by cases h⟩
  obtain ⟨p, rfl, q0, -, q1, -⟩ := k2
  have hp := q1 _ rfl hm hl
  simp only [Call.expect, Int.toNat_natCast] at hp
  simp only [UserOp.run, Call.run] at k1
  generalize hr : PyStream.readline raw (some (n : Int)) = x at k1
  obtain ⟨x, raw'⟩ := x
  cases x with
  | error e => simp [Except.map] at k1
  | ok b =>
    simp only [Except.map, Prod.mk.injEq, Except.ok.injEq, UserVal.bytes.injEq] at k1
    obtain ⟨rfl, rfl⟩ := k1
    refine ⟨raw', by rw [hp], ?_⟩
    have : rem.drop ((takeLine rem).take n).length = left' := by rw [← hp, q0, List.drop_left]
    rw [this]
    exact k3

/-- Going on to a record. -/
theorem Ready.advance (pre : List Expected) {it : ArchiveIter σ} (h : Ready multi last it (pre ++ e :: es)) {plan : List (List UserOp)} (hl : plan.length = pre.length)
    (ho : ∀ ops ∈ plan, ∀ o ∈ ops, GzOps multi o) :
    ∃ it' rec left, Warcio.advance it plan = .ok it' ∧ it'.record = some rec ∧ e.shows rec left ∧ Now multi last it' e left es := by
  induction pre generalizing it plan with
  | nil =>
    obtain rfl := List.length_eq_zero_iff.1 hl
    obtain ⟨it', rec, left, k1, k2, k3, k4⟩ := Ready.record h
    exact ⟨it', rec, left, by rw [Warcio.advance, k1], k2, k3, k4⟩
  | cons x pre ih =>
    cases plan with
    | nil => cases hl
    | cons ops plan =>
      obtain ⟨it', rec, left, k1, k2, k3, k4⟩ := Ready.record h
      have hops : ∃ left', Now multi last (runOps it' ops).2 x left' (pre ++ e :: es) := by
        obtain ⟨vs, it2, left', m1, m2, m3⟩ := k4.ops (ho ops (by simp))
        rw [m1]
        exact ⟨left', m3⟩
      obtain ⟨left', k5⟩ := hops
      obtain ⟨it2, rec2, left2, m1, m2⟩ := ih k5.ready (by simpa using hl) (fun o h => ho o (by simp [h]))
      exact ⟨it2, rec2, left2, by rw [Warcio.advance, k1]; exact m1, m2⟩

theorem lineLaw_le {τ : Type} [PyStream τ] {W : τ → Bytes → Prop} {m n : Nat} (h : LineLaw W m) (hn : n ≤ m) : LineLaw W n :=
  fun hs hm hl k => h hs hm (by omega) k

end ArchiveIter

/-! ## Reading -/

section
variable {τ : Type} [Zlib] [PyStream τ]

/-- What a content stream holds. -/
def ContentStream.View (V : τ → Bytes → Prop) (W : BufReader τ → Bytes → Prop) : ContentStream τ → Bytes → Prop
  | .raw s, rem => V s rem
  | .buffered r, rem => W r rem

theorem ContentStream.gets {V : τ → Bytes → Prop} {W : BufReader τ → Bytes → Prop} (hV : Gets V) (hW : BufReader.FillLaw W) : Gets (ContentStream.View V W) where
  read_some := by
    intro s rem h n
    cases s with
    | raw s =>
      obtain ⟨s', k1, k2⟩ := hV.read_some h n
      exact ⟨.raw s', by simp only [PyStream.read] at k1 ⊢; rw [k1], k2⟩
    | buffered r =>
      obtain ⟨r', k1, k2⟩ := (BufReader.exactRead hW).read_some h n
      exact ⟨.buffered r', by simp only [PyStream.read] at k1 ⊢; rw [k1], k2⟩
  bound := by
    intro s rem h
    cases s with
    | raw s => exact hV.bound h
    | buffered r => exact (BufReader.exactRead hW).bound h

/-- Reading in blocks. -/
theorem Gets.readBlocks {V : τ → Bytes → Prop} (hV : Gets V) {n : Int} (hn : 0 < n) : ∀ (fuel : Nat) {s : τ} {rem : Bytes}, V s rem → rem.length < fuel →
    ∃ bufs s', Warcio.readBlocks n fuel s = (bufs, .ok (), s') ∧ bufs.flatten = rem ∧ V s' []
  | 0, _, _, _, h => by omega
  | fuel + 1, s, rem, h, hf => by
    obtain ⟨k, rfl⟩ : ∃ k : Nat, n = (k : Int) := ⟨n.toNat, by omega⟩
    obtain ⟨s', k1, k2⟩ := hV.read_some h k
    unfold Warcio.readBlocks
    rw [k1]
    dsimp only
    split
    · rename_i hb
      have hb : rem.take k = [] := by simpa using hb
      have hl : rem = [] := by
        rcases List.take_eq_nil_iff.1 hb with h | h
        · omega
        · exact h
      subst hl
      exact ⟨[], s', rfl, rfl, by simpa using k2⟩
    · rename_i hb
      have hne : rem ≠ [] := by rintro rfl; simp at hb
      have := List.length_pos_iff.2 hne
      obtain ⟨bufs, s2, m1, m2, m3⟩ := Gets.readBlocks hV hn fuel k2 (by rw [List.length_drop]; omega)
      rw [m1]
      exact ⟨rem.take k :: bufs, s2, rfl, by rw [List.flatten_cons, m2, List.take_append_drop], m3⟩

/-- Calls that succeed. -/
structure Answers (m : Nat) (V : τ → Bytes → Prop) : Prop where
  call : ∀ {s rem}, V s rem → ∀ {c : Call}, c.nonneg → ∃ p left s', c.run s = (.ok p, s') ∧ rem = p ++ left ∧ V s' left ∧
    (∀ n, c = .read n → p = c.expect rem) ∧ (c = .readline none → (10 : UInt8) ∈ rem → (takeLine rem).length ≤ m → p = takeLine rem) ∧ (p = [] → left = [] ∨ c.arg = some 0)

theorem Answers.serves {m : Nat} {V : τ → Bytes → Prop} (hV : Answers m V) : ∀ (cs : List Call) {s : τ} {rem : Bytes}, V s rem → (∀ c ∈ cs, c.nonneg) →
    Serves m rem cs (runCalls s cs).1 ∧ ∃ left, V (runCalls s cs).2 left
  | [], _, rem, h, _ => ⟨.nil _, rem, h⟩
  | c :: cs, s, rem, h, hc => by
    obtain ⟨p, left, s', k1, rfl, k3, k4, k5, k6⟩ := hV.call h (hc c (by simp))
    obtain ⟨i1, i2⟩ := Answers.serves hV cs k3 (fun c h => hc c (by simp [h]))
    simp only [runCalls, k1]
    exact ⟨.call c p left cs _ k4 k5 k6 i1, i2⟩

theorem ExactRead.answers {V : τ → Bytes → Prop} (hV : ExactRead V) (m : Nat) : Answers m V where
  call := by
    intro s rem h c hc
    cases c with
    | read n =>
      cases n with
      | none =>
        obtain ⟨s', k1, k2⟩ := hV.read_none h
        exact ⟨rem, [], s', k1, by simp, k2, fun n hn => (by cases hn; rfl), fun h => (by cases h), fun h => .inl rfl⟩
      | some n =>
        obtain ⟨k, rfl⟩ : ∃ k : Nat, n = (k : Int) := ⟨n.toNat, by have := hc n rfl; omega⟩
        obtain ⟨s', k1, k2⟩ := hV.read_some h k
        refine ⟨rem.take k, rem.drop k, s', k1, by simp, k2, fun n hn => (by cases hn; simp [Call.expect]), fun h => (by cases h), ?_⟩
        intro hp
        rcases List.take_eq_nil_iff.1 hp with h | h
        · right; rw [h]; rfl
        · left; rw [h]; simp
    | readline n =>
      cases n with
      | none =>
        obtain ⟨s', k1, k2⟩ := hV.readline_none h
        refine ⟨takeLine rem, dropLine rem, s', k1, (takeLine_append_dropLine rem).symm, k2, fun n hn => (by cases hn), fun _ _ _ => rfl, ?_⟩
        intro hp
        left
        have : rem = [] := by
          cases rem with
          | nil => rfl
          | cons a l => simp [takeLine] at hp; split at hp <;> cases hp
        rw [this]; rfl
      | some n =>
        obtain ⟨j, rfl⟩ : ∃ k : Nat, n = (k : Int) := ⟨n.toNat, by have := hc n rfl; omega⟩
        obtain ⟨k, s', a1, a2, a3, k1, k2⟩ := hV.readline_some h j
        refine ⟨rem.take k, rem.drop k, s', k1, by simp, k2, fun n hn => (by cases hn), fun h => (by cases h), ?_⟩
        intro hp
        by_cases hj : 0 < j
        · rcases List.take_eq_nil_iff.1 hp with h | h
          · left; rw [a3 hj h]; simp
          · left; rw [h]; simp
        · right
          have : j = 0 := by omega
          rw [this]; rfl

theorem ContentStream.answers {m : Nat} {V : τ → Bytes → Prop} {W : BufReader τ → Bytes → Prop} (hV : Answers m V) (hW : BufReader.FillLaw W) : Answers m (ContentStream.View V W) where
  call := by
    intro s rem h c hc
    cases s with
    | raw s =>
      obtain ⟨p, left, s', k1, k2, k3, k4⟩ := hV.call h hc
      refine ⟨p, left, .raw s', ?_, k2, k3, k4⟩
      cases c <;> (simp only [Call.run, PyStream.read, PyStream.readline] at k1 ⊢; rw [k1])
    | buffered r =>
      obtain ⟨p, left, s', k1, k2, k3, k4⟩ := ((BufReader.exactRead hW).answers m).call h hc
      refine ⟨p, left, .buffered s', ?_, k2, k3, k4⟩
      cases c <;> (simp only [Call.run, PyStream.read, PyStream.readline] at k1 ⊢; rw [k1])

/-- The stream below is still a good one. -/
def Keeps (V : τ → Bytes → Prop) (W : BufReader τ → Bytes → Prop) : Prop := ∀ {r d}, W r d → ∃ p, V r.stream p

theorem decAll_keeps {K : BufReader τ → Bytes → Bytes → Prop} {V : τ → Bytes → Prop} : Keeps V (BufReader.DecAll K V) := by
  intro r d h
  obtain ⟨p, d, h1, -⟩ := h.split
  exact ⟨p, h1⟩

theorem decChunks_keeps {K : BufReader τ → Bytes → Bytes → Prop} {V : τ → Bytes → Prop} {rest : Bytes} : Keeps V (BufReader.DecChunks K V rest) := by
  intro r d h
  obtain ⟨c, s, p, d, h1, h2, h3, -⟩ := h.split
  exact ⟨s, h3⟩

theorem ContentStream.View.below {V : τ → Bytes → Prop} {W : BufReader τ → Bytes → Prop} (hk : Keeps V W) {s : ContentStream τ} {rem : Bytes} (h : ContentStream.View V W s rem) :
    ∃ p, V s.below p := by
  cases s with
  | raw s => exact ⟨rem, h⟩
  | buffered r => exact hk h

/-- A fresh reader that decodes all of its stream. -/
theorem decAll_new {K : BufReader τ → Bytes → Bytes → Prop} {V : τ → Bytes → Prop} {s : τ} {p d : Bytes} {t : Option DType} {r : BufReader τ} (hr : BufReader.new s 16384 t = .ok r) (hs : V s p)
    (hK : K r p d) : BufReader.DecAll K V r d := by
  unfold BufReader.new at hr
  split at hr
  · cases hr
    exact ⟨rfl, (by show 0 < 16384; decide), rfl, rfl, p, d, hs, hK, rfl⟩
  · split at hr
    · cases hr
      exact ⟨rfl, (by show 0 < 16384; decide), rfl, rfl, p, d, hs, hK, rfl⟩
    · cases hr

theorem decChunks_new {K : BufReader τ → Bytes → Bytes → Prop} {V : τ → Bytes → Prop} {s : τ} {e p d rest : Bytes} {t : Option DType} {r : BufReader τ} (hr : BufReader.newChunked s false 16384 t = .ok r)
    (hs : V s (e ++ rest)) (he : ChunkedBody e p) (hK : K r p d) : BufReader.DecChunks K V rest r d := by
  unfold BufReader.newChunked BufReader.new at hr
  cases t with
  | none =>
    cases hr
    exact ⟨(by show 0 < 16384; decide), rfl, _, e ++ rest, p, d, rfl, rfl, hs, hK, rfl, .inr ⟨rfl, e, he.loose, rfl⟩⟩
  | some k =>
    dsimp only at hr
    cases hc : Zlib.codec k with
    | none => rw [hc] at hr; cases hr
    | some c =>
      rw [hc] at hr
      cases hr
      exact ⟨(by show 0 < 16384; decide), rfl, _, e ++ rest, p, d, rfl, rfl, hs, hK, rfl, .inr ⟨rfl, e, he.loose, rfl⟩⟩

variable [PyUni] {IsCoded : DType → Bytes → Bytes → Prop}

theorem decoder_of {ce : Option Str} {k : Option DType} (h : NamesCoding ce k) : contentDecoder ce = k.bind (fun k => if (Zlib.codec k).isSome then some k else none) := by
  unfold contentDecoder
  cases h with
  | none => rfl
  | gzip n h =>
    have hn : Loader.truthy (some n) = true := by
      cases n with
      | nil => rw [PyUni.lower_ascii [] rfl] at h; cases h
      | cons _ _ => rfl
    rw [if_pos hn]
    simp only [Option.getD_some, h]
    rfl
  | deflate n h =>
    have hn : Loader.truthy (some n) = true := by
      cases n with
      | nil => rw [PyUni.lower_ascii [] rfl] at h; cases h
      | cons _ _ => rfl
    rw [if_pos hn]
    simp only [Option.getD_some, h]
    rfl
  | br n h =>
    have hn : Loader.truthy (some n) = true := by
      cases n with
      | nil => rw [PyUni.lower_ascii [] rfl] at h; cases h
      | cons _ _ => rfl
    rw [if_pos hn]
    simp only [Option.getD_some, h]
    rfl
  | other n h =>
    have : DType.ofName (PyUni.lower n) = none := by
      simp only [List.mem_cons, List.not_mem_nil, or_false, not_or] at h
      obtain ⟨h1, h2, h3, h4⟩ := h
      unfold DType.ofName
      rw [if_neg h1, if_neg h2, if_neg h4, if_neg h3]
    simp only [Option.getD_some, this]
    split <;> rfl

theorem nothing_keeps {V : τ → Bytes → Prop} : Keeps V (BufReader.Nothing V) := by
  intro r d h
  exact ⟨[], h.stream⟩

/-- The reader that is used for any names of codings. -/
theorem decoder_some {ce : Option Str} {k : Option DType} (h : NamesCoding ce k) {j : DType} (hj : contentDecoder ce = some j) : (Zlib.codec j).isSome = true := by
  rw [decoder_of h] at hj
  cases k with
  | none => cases hj
  | some k =>
    simp only [Option.bind_some] at hj
    split at hj
    · cases hj; assumption
    · cases hj

theorem codec_start (LC : LawfulCodec k I) {r : BufReader τ} (hr : r.decompressor = some { kind := k }) {z d more : Bytes} (hz : I z d) : BufReader.KCodec LC r (z ++ more) d :=
  ⟨[], z, d, [], more, hr, by simp, hz, rfl, rfl, rfl⟩

/-- A content stream of decoded data. -/
theorem content_of (LC : LawfulCodecs IsCoded) {V : τ → Bytes → Prop} (hV : Gets V) (hL : LineLaw V 64) (hE : ∀ {s}, V s [] → ∃ s', PyStream.readline s (some 64) = (.ok [], s') ∧ V s' []) {rec : Record τ} {h : StatusAndHeaders} (hh : rec.httpHeaders = some h) (ht : h.truthy = true)
    {p d : Bytes} (hs : V rec.rawStream p) (hb : BodyData IsCoded (h.getHeader (lit "content-encoding")) (h.getHeader (lit "transfer-encoding")) p d) :
    ∃ cs W, rec.contentStream = .ok cs ∧ BufReader.FillLaw W ∧ Keeps V W ∧ ContentStream.View V W cs d := by
  unfold Record.contentStream
  rw [hh]
  dsimp only
  rw [ht, if_neg (by decide)]
  cases hb with
  | empty k h2 =>
    have done : ∀ j : DType, (Zlib.codec j).isSome = true → ∃ c, Zlib.codec j = some c := fun j h => Option.isSome_iff_exists.1 h
    have new : ∀ {t : Option DType}, (∀ j, t = some j → (Zlib.codec j).isSome = true) → ∃ r : BufReader τ, BufReader.new rec.rawStream 16384 t = .ok r ∧ BufReader.Nothing V r [] ∧
        BufReader.newChunked rec.rawStream false 16384 t = .ok { r with chunk := some { raiseExceptions := false } } := by
      intro t ht
      cases t with
      | none => exact ⟨_, rfl, ⟨(by show 0 < 16384; decide), rfl, rfl, hs, rfl, fun c hc => (by cases hc), rfl⟩, rfl⟩
      | some j =>
        obtain ⟨c, hc⟩ := done j (ht j rfl)
        have hn : BufReader.new rec.rawStream 16384 (some j) = .ok { stream := rec.rawStream, blockSize := 16384, decompType := some j, decompressor := some { kind := j }, readAllMembers := false } := by
          unfold BufReader.new
          dsimp only
          rw [hc]
        refine ⟨_, hn, ⟨(by show 0 < 16384; decide), rfl, rfl, hs, rfl, fun c hc => (by cases hc), rfl⟩, ?_⟩
        unfold BufReader.newChunked
        rw [hn]
    obtain ⟨r, n1, n2, n3⟩ := new (fun j hj => decoder_some h2 hj)
    have law := BufReader.nothing_fillLaw hV.short hE
    by_cases ht : h.getHeader (lit "transfer-encoding") = some (lit "chunked")
    · rw [if_pos ht, n3]
      exact ⟨_, _, rfl, law, nothing_keeps, ⟨n2.block, n2.one, n2.sd, n2.stream, n2.buff, fun c hc => by cases hc; rfl, rfl⟩⟩
    · rw [if_neg ht]
      generalize contentDecoder (h.getHeader (lit "content-encoding")) = t at n1 n3
      cases t with
      | none => exact ⟨_, _, rfl, law, nothing_keeps, hs⟩
      | some j =>
        dsimp only
        rw [n1]
        exact ⟨_, _, rfl, law, nothing_keeps, n2⟩
  | plain k _ _ h1 h2 h3 =>
    rw [decoder_of h2, if_neg h1]
    cases h3 with
    | none => exact ⟨_, _, rfl, BufReader.decAll_fillLaw BufReader.kPlain hV.short, decAll_keeps, hs⟩
    | missing k _ h4 =>
      simp only [Option.bind_some, h4, Option.isSome_none, Bool.false_eq_true, if_false]
      exact ⟨_, _, rfl, BufReader.decAll_fillLaw BufReader.kPlain hV.short, decAll_keeps, hs⟩
    | coded k z _ more h4 h5 =>
      obtain ⟨C⟩ := LC k h4
      simp only [Option.bind_some, h4, if_true]
      have hn : BufReader.new rec.rawStream 16384 (some k) = .ok { stream := rec.rawStream, blockSize := 16384, decompType := some k, decompressor := some { kind := k }, readAllMembers := false } := by
        unfold BufReader.new
        dsimp only
        rw [C.codec_eq]
      rw [hn]
      exact ⟨_, _, rfl, BufReader.decAll_fillLaw (BufReader.kCodec C) hV.short, decAll_keeps, decAll_new hn hs (codec_start C rfl h5)⟩
    | empty k =>
      cases hk : Zlib.codec k with
      | none =>
        simp only [Option.bind_some, hk, Option.isSome_none, Bool.false_eq_true, if_false]
        exact ⟨_, _, rfl, BufReader.decAll_fillLaw BufReader.kPlain hV.short, decAll_keeps, hs⟩
      | some c =>
        simp only [Option.bind_some, hk, Option.isSome_some, if_true]
        have hn : BufReader.new rec.rawStream 16384 (some k) = .ok { stream := rec.rawStream, blockSize := 16384, decompType := some k, decompressor := some { kind := k }, readAllMembers := false } := by
          unfold BufReader.new
          dsimp only
          rw [hk]
        rw [hn]
        exact ⟨_, _, rfl, BufReader.decAll_fillLaw BufReader.kNone hV.short, decAll_keeps, decAll_new (K := BufReader.KNone) hn hs ⟨rfl, rfl⟩⟩
  | chunked k e p _ more h1 h2 h3 h4 =>
    rw [decoder_of h3, if_pos h1]
    have plain : ∃ cs W, Except.map ContentStream.buffered (BufReader.newChunked rec.rawStream false 16384 none) = .ok cs ∧ BufReader.FillLaw W ∧ Keeps V W ∧ ContentStream.View V W cs p :=
      ⟨_, _, rfl, BufReader.decChunks_fillLaw BufReader.kPlain hV hL more, decChunks_keeps, decChunks_new (K := BufReader.KPlain) (t := none) rfl hs h2 ⟨rfl, rfl⟩⟩
    cases h4 with
    | none => exact plain
    | missing k _ h4 =>
      simp only [Option.bind_some, h4, Option.isSome_none, Bool.false_eq_true, if_false]
      exact plain
    | coded k z _ more' h4 h5 =>
      obtain ⟨C⟩ := LC k h4
      simp only [Option.bind_some, h4, if_true]
      have hn : BufReader.newChunked rec.rawStream false 16384 (some k) = .ok { stream := rec.rawStream, blockSize := 16384, decompType := some k, decompressor := some { kind := k }, readAllMembers := false, chunk := some { raiseExceptions := false } } := by
        unfold BufReader.newChunked BufReader.new
        dsimp only
        rw [C.codec_eq]
      rw [hn]
      exact ⟨_, _, rfl, BufReader.decChunks_fillLaw (BufReader.kCodec C) hV hL more, decChunks_keeps, decChunks_new hn hs h2 (codec_start C rfl h5)⟩
    | empty k =>
      cases hk : Zlib.codec k with
      | none =>
        simp only [Option.bind_some, hk, Option.isSome_none, Bool.false_eq_true, if_false]
        exact plain
      | some c =>
        simp only [Option.bind_some, hk, Option.isSome_some, if_true]
        have hn : BufReader.newChunked rec.rawStream false 16384 (some k) = .ok { stream := rec.rawStream, blockSize := 16384, decompType := some k, decompressor := some { kind := k }, readAllMembers := false, chunk := some { raiseExceptions := false } } := by
          unfold BufReader.newChunked BufReader.new
          dsimp only
          rw [hk]
        rw [hn]
        exact ⟨_, _, rfl, BufReader.decChunks_fillLaw BufReader.kNone hV hL more, decChunks_keeps, decChunks_new (K := BufReader.KNone) hn hs h2 ⟨rfl, rfl⟩⟩

end

namespace ArchiveIter

variable {σ : Type} [Zlib] [PyStream σ] [Hashlib] [PyUni] {IsCoded : DType → Bytes → Bytes → Prop}
variable {multi : Bool} {last : Option PyErr} {it : ArchiveIter σ} {e : Expected} {left : Bytes} {es : List Expected}

theorem rawView_answers : Answers e.line (RawView multi last it e es) where
  call := by
    intro raw rem h c hc
    obtain ⟨v, it', left', k1, k2, k3⟩ := Now.op h (op := .call c) ⟨hc, fun _ h => by cases h⟩
    obtain ⟨p, rfl, q0, q1, q2, q3⟩ := k2
    simp only [UserOp.run] at k1
    generalize hr : c.run raw = x at k1
    obtain ⟨x, raw'⟩ := x
    cases x with
    | error e => simp [Except.map] at k1
    | ok b =>
      simp only [Except.map, Prod.mk.injEq, Except.ok.injEq, UserVal.bytes.injEq] at k1
      obtain ⟨rfl, rfl⟩ := k1
      exact ⟨b, left', raw', rfl, q0, k3, q1, fun h0 h1 h2 => by rw [q2 none h0 h1 h2, h0]; rfl, q3⟩

theorem rawView_nil {raw : RawStream (BufReader σ)} (h : RawView multi last it e es raw []) :
    ∃ raw', PyStream.readline raw (some 64) = (.ok [], raw') ∧ RawView multi last it e es raw' [] := by
  obtain ⟨p, left, s', k1, k2, k3, -⟩ := (rawView_answers (multi := multi) (last := last) (it := it) (e := e) (es := es)).call h (c := .readline (some 64)) (by intro k hk; cases hk; decide)
  obtain ⟨rfl, rfl⟩ := List.append_eq_nil_iff.1 k2.symm
  exact ⟨s', k1, k3⟩

/-- The content stream of the current record, if it shows a block. -/
theorem content_like (LC : LawfulCodecs IsCoded) (hn : Now multi last it e left es) {http : Prop} {block : Bytes} {m : Nat} {rec : Record Unit}
    (hb : ¬ http ∨ block = [] → left = block ∧ rec.httpHeaders = none)
    (hh : http → HeadWithin m block → lineText (takeLine block) ≠ [] → ∃ h, HttpHead block h left ∧ (h.statusline ≠ [] ∨ h.headers ≠ [] → rec.httpHeaders = some h))
    (hm : http → 64 ≤ e.line) {d : Bytes} (hc : ContentOf IsCoded http block m d) :
    ∃ cs W, (withRaw rec it.raw).contentStream = .ok cs ∧ BufReader.FillLaw W ∧ Keeps (RawView multi last it e es) W ∧ ContentStream.View (RawView multi last it e es) W cs d := by
  cases hc with
  | whole h0 =>
    obtain ⟨k1, k3⟩ := hb h0
    have hh : (withRaw rec it.raw).httpHeaders = none := k3
    refine ⟨.raw it.raw, _, ?_, BufReader.decAll_fillLaw BufReader.kPlain rawView_gets.short (V := RawView multi last it e es), decAll_keeps, ?_⟩
    · unfold Record.contentStream
      rw [hh]
      rfl
    · show Now multi last it e block es
      rw [← k1]; exact hn
  | http h p _ g1 g2 g3 g4 g5 g6 =>
    obtain ⟨y, k1, k2⟩ := hh g1 g2 g3
    obtain ⟨d1, d2, d3, d4⟩ := k1.det g4
    have k3 := k2 (by rw [d2, d3]; exact g5)
    have hy : y.truthy = true := by
      unfold StatusAndHeaders.truthy
      rcases g5 with hne | hne
      · rw [← d2] at hne
        cases hs : y.statusline <;> simp_all
      · rw [← d3] at hne
        cases hs : y.headers <;> simp_all
    rw [← d3, ← d4, Loader.firstValue_eq, Loader.firstValue_eq] at g6
    exact content_of LC rawView_gets (lineLaw_le rawView_line (hm g1)) (fun hs => rawView_nil hs) (rec := withRaw rec it.raw) k3 hy hn g6

/-- The content stream of the current record. -/
theorem content_now (LC : LawfulCodecs IsCoded) (hn : Now multi last it e left es) {w : WarcRecord} {m : Nat} {io : IterOpts} {rec : Record Unit} (hs : w.Shows io m rec left) (h1 : io.noRecordParse = false)
    (h2 : io.ensureHttpHeaders = false) (hm : w.Http → 64 ≤ e.line) {d : Bytes} (hc : w.Content IsCoded m d) :
    ∃ cs W, (withRaw rec it.raw).contentStream = .ok cs ∧ BufReader.FillLaw W ∧ Keeps (RawView multi last it e es) W ∧ ContentStream.View (RawView multi last it e es) W cs d := by
  refine content_like LC hn (http := w.Http) (block := w.block) (m := m) (fun h0 => ?_) (fun g1 g2 g3 => ?_) hm hc
  · obtain ⟨k1, -, k3⟩ := hs.block (.inr h0)
    exact ⟨k1, k3 h2⟩
  · obtain ⟨y, k1, k2⟩ := hs.http h1 g1 g2 g3
    exact ⟨y, k1, fun h => (k2 h).1⟩

/-- The content stream of a record that is cut off. -/
theorem content_cut (LC : LawfulCodecs IsCoded) (hn : Now multi last it e left es) {w : WarcRecord} {part : Bytes} {m : Nat} {io : IterOpts} {rec : Record Unit} (hs : w.ShowsPart part io m rec left) (h1 : io.noRecordParse = false)
    (h2 : io.ensureHttpHeaders = false) (hm : w.Http → 64 ≤ e.line) {d : Bytes} (hc : ({ w with block := part } : WarcRecord).Content IsCoded m d) :
    ∃ cs W, (withRaw rec it.raw).contentStream = .ok cs ∧ BufReader.FillLaw W ∧ Keeps (RawView multi last it e es) W ∧ ContentStream.View (RawView multi last it e es) W cs d := by
  refine content_like LC hn (http := w.Http) (block := part) (m := m) (fun h0 => ?_) (fun g1 g2 g3 => ?_) hm hc
  · obtain ⟨k1, -, k3⟩ := hs.block (.inr h0)
    exact ⟨k1, k3 h2⟩
  · obtain ⟨y, k1, k2⟩ := hs.http h1 g1 g2 g3
    exact ⟨y, k1, fun h => (k2 h).1⟩

end ArchiveIter
end Warcio
