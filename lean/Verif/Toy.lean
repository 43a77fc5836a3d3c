import Verif.Py.Hash
import Verif.Spec.Codec

/-!
# A toy compression format

It has the gzip magic, then `1, b` for each byte `b`, then `0`.  It satisfies the laws that
are assumed of zlib, so theorems under these laws are not vacuous, and examples can be
computed.  It models no file in /repo; it stands for `zlib.decompressobj`
(bufferedreaders.py:9-21).
-/

namespace Warcio.Toy

/-- States of the toy decompressor (stands for the state of `zlib.decompressobj`,
bufferedreaders.py:10). -/
inductive St
  | h0 | h1 (b : UInt8) | body | lit | done (unused : Bytes) | err
  deriving DecidableEq

/-- One byte of input: new state and output (bufferedreaders.py:137). -/
def step : St → UInt8 → St × Bytes
  | .h0, b => (.h1 b, [])
  | .h1 a, b => if a = 0x1f ∧ b = 0x8b then (.body, []) else (.err, [])
  | .body, b => if b = 1 then (.lit, []) else if b = 0 then (.done [], []) else (.err, [])
  | .lit, b => (.body, [b])
  | .done u, b => (.done (u ++ [b]), [])
  | .err, _ => (.err, [])

/-- Many bytes of input (bufferedreaders.py:137). -/
def go : St → Bytes → St × Bytes
  | s, [] => (s, [])
  | s, b :: bs =>
    let r := step s b
    let r' := go r.1 bs
    (r'.1, r.2 ++ r'.2)

/-- The toy `decompressobj` as a codec (bufferedreaders.py:9-21). -/
def codec : Codec where
  out hist ch :=
    let r := go (go .h0 hist.flatten).1 ch
    if r.1 = .err then none else some r.2
  unused hist :=
    match (go .h0 hist.flatten).1 with
    | .done u => u
    | _ => []

/-- The toy compression of `d` (warcwriter.py:231-251 with a real compressor). -/
def compress (d : Bytes) : Bytes := [0x1f, 0x8b] ++ (d.flatMap (fun b => [1, b]) ++ [0])

/-- One member of the toy format. -/
def IsMember (z d : Bytes) : Prop := z = compress d

/-- Only gzip is available (bufferedreaders.py:25-36). -/
scoped instance zlib : Zlib where
  codec k := if k = .gzip then some codec else none
  ratio := 1

theorem go_append (s : St) (a b : Bytes) :
    go s (a ++ b) = ((go (go s a).1 b).1, (go s a).2 ++ (go (go s a).1 b).2) := by
  induction a generalizing s with
  | nil => simp [go]
  | cons x xs ih => simp [go, ih, List.append_assoc]

theorem go_err (b : Bytes) : go .err b = (.err, []) := by
  induction b with
  | nil => rfl
  | cons x xs ih => simp [go, step, ih]

theorem go_done (u b : Bytes) : go (.done u) b = (.done (u ++ b), []) := by
  induction b generalizing u with
  | nil => simp [go]
  | cons x xs ih => simp [go, step, ih]

theorem go_body (d : Bytes) : go .body (d.flatMap (fun b => [1, b]) ++ [0]) = (.done [], d) := by
  induction d with
  | nil => simp [go, step]
  | cons x xs ih => simp [go, step] at ih ⊢; simp [ih]

theorem go_compress (d : Bytes) : go .h0 (compress d) = (.done [], d) := by
  unfold compress
  rw [go_append]
  have : go .h0 [0x1f, 0x8b] = (.body, []) := by decide
  rw [this]; simp [go_body]

theorem run_eq (hist : List Bytes) (h : (go .h0 hist.flatten).1 ≠ .err) :
    codec.run hist = some (go .h0 hist.flatten).2 := by
  unfold Codec.run
  suffices ∀ pre, (go .h0 (pre.flatten ++ hist.flatten)).1 ≠ .err →
      codec.runFrom pre hist = some (go (go .h0 pre.flatten).1 hist.flatten).2 by
    simpa [go] using this [] (by simpa using h)
  clear h
  induction hist with
  | nil => intro pre _; simp [Codec.runFrom, go]
  | cons ch t ih =>
    intro pre h
    have h1 : (go (go .h0 pre.flatten).1 ch).1 ≠ .err := by
      intro he
      apply h
      rw [List.flatten_cons, ← List.append_assoc, go_append, go_append]
      simp [he, go_err]
    have h2 := ih (pre ++ [ch]) (by simpa using h)
    simp only [Codec.runFrom, codec, if_neg h1] at h2 ⊢
    rw [h2]
    simp [go_append]

/-- The toy format satisfies what is assumed of gzip. -/
def lawful : LawfulGzip IsMember where
  codec := codec
  codec_eq := rfl
  member := by
    intro z d hist hm _ hcmp
    have hz : go .h0 z = (.done [], d) := by rw [hm]; exact go_compress d
    generalize hx : hist.flatten = x at hcmp
    have key : (go .h0 x).1 ≠ .err ∧ (go .h0 x).2 <+: d ∧ (z <+: x → (go .h0 x).2 = d) ∧
        codec.unused hist = x.drop z.length := by
      have hun : codec.unused hist = (match (go .h0 x).1 with | .done u => u | _ => []) := by
        simp [codec, hx]
      rw [hun]
      have beyond : z <+: x → (go .h0 x).1 = .done (x.drop z.length) ∧ (go .h0 x).2 = d := by
        rintro ⟨u, rfl⟩
        rw [go_append, hz, go_done]; simp
      rcases hcmp with ⟨y, hy⟩ | h
      · have h1 := hz
        rw [← hy, go_append] at h1
        simp only [Prod.mk.injEq] at h1
        refine ⟨?_, ⟨_, h1.2⟩, fun h => (beyond h).2, ?_⟩
        · intro he; rw [he, go_err] at h1; simp at h1
        · rw [← hy, List.length_append]
          rw [List.drop_of_length_le (by omega)]
          cases hs : (go .h0 x).1 with
          | done u =>
            rw [hs, go_done] at h1; simp at h1
            simp [h1.1.1]
          | _ => rfl
      · obtain ⟨h1, h2⟩ := beyond h
        refine ⟨by rw [h1]; simp, by rw [h2]; exact List.prefix_rfl, fun _ => h2, by rw [h1]⟩
    refine ⟨(go .h0 x).2, ?_, key.2⟩
    rw [run_eq hist (by rw [hx]; exact key.1), hx]
  notGzip := by
    intro ch hl hm
    match ch, hl with
    | a :: b :: t, _ =>
      have : ¬ (a = 0x1f ∧ b = 0x8b) := by
        rintro ⟨rfl, rfl⟩; exact hm ⟨t, rfl⟩
      simp [codec, go, step, if_neg this, go_err]
  unused_nil := rfl
  oneByte := by intro b; exact ⟨rfl, rfl⟩
  ratio := by
    intro z d hm
    rw [hm]; clear hm
    have : (d.flatMap (fun b => [(1 : UInt8), b])).length = 2 * d.length := by
      induction d with
      | nil => rfl
      | cons x xs ih => rw [List.flatMap_cons, List.length_append, ih]; simp; omega
    simp only [compress, List.length_append, this]
    show d.length ≤ 1 * _
    omega
  magic := by intro z d hm; rw [hm]; exact ⟨_, rfl⟩

/-- ASCII case mapping and digits (stands for `str.lower`, `str.upper`, `int`;
statusandheaders.py:39,316,92). -/
scoped instance uni : PyUni where
  lower s := s.map Char.toLower
  upper s := s.map Char.toUpper
  decimal c := if 48 ≤ c.toNat ∧ c.toNat ≤ 57 then some (c.toNat - 48) else none
  isDigit c := 48 ≤ c.toNat && c.toNat ≤ 57
  lower_ascii _ _ := rfl
  upper_ascii _ _ := rfl
  upper_append s t := by simp
  decimal_ascii _ _ := rfl
  decimal_lt c n h := by split at h <;> simp at h; omega
  decimal_space c n h := by
    split at h
    · simp [isSpace]; omega
    · cases h
  digit_decimal c n h := by
    split at h
    · simpa using ‹_›
    · cases h

end Warcio.Toy

namespace Warcio.Toy

/-- A toy `hashlib`: `sha1` is twenty bytes that hold the length and the sum of the data,
`md5` is sixteen bytes of the sum. -/
scoped instance hashes : Hashlib where
  hash name :=
    if name = lit "sha1" then some (fun d => UInt8.ofNat d.length :: List.replicate 19 (d.foldl (· + ·) 0))
    else if name = lit "md5" then some (fun d => List.replicate 16 (d.foldl (· + ·) 0))
    else none

end Warcio.Toy

namespace Warcio.Toy

/-- What a state holds back. -/
theorem go_size (x : Bytes) (s : St) (hs : ∀ u, s ≠ .done u) : ∀ u, (go s x).1 = .done u → (go s x).2.length + u.length ≤ x.length ∧ u.length < x.length := by
  induction x generalizing s with
  | nil => intro u h; exact absurd h (hs u)
  | cons b bs ih =>
    intro u h
    simp only [go] at h ⊢
    by_cases hd : ∃ v, (step s b).1 = .done v
    · obtain ⟨v, hv⟩ := hd
      have : v = [] ∧ (step s b).2 = [] := by
        cases s <;> simp only [step] at hv ⊢
        all_goals (try split at hv) 
        all_goals (try split at hv)
        all_goals first
          | (simp_all; done)
          | exact absurd rfl (hs _)
      rw [hv, this.1, go_done] at h
      rw [hv, this.1, this.2, go_done]
      simp only [List.nil_append, St.done.injEq] at h
      subst h
      simp
    · have hs' : ∀ u, (step s b).1 ≠ .done u := fun u hu => hd ⟨u, hu⟩
      have h2 := ih (step s b).1 hs' u h
      have h3 : (step s b).2.length ≤ 1 := by
        cases s <;> simp only [step] <;> (try split) <;> (try split) <;> simp
      simp only [List.length_append, List.length_cons]
      omega

theorem go_out (x : Bytes) (s : St) : (go s x).2.length ≤ x.length := by
  induction x generalizing s with
  | nil => simp [go]
  | cons b bs ih =>
    simp only [go, List.length_append, List.length_cons]
    have := ih (step s b).1
    have h3 : (step s b).2.length ≤ 1 := by
      cases s <;> simp only [step] <;> (try split) <;> (try split) <;> simp
    omega

theorem produced_le (hist pre : List Bytes) : codec.producedFrom pre hist ≤ (go (go .h0 pre.flatten).1 hist.flatten).2.length := by
  induction hist generalizing pre with
  | nil => simp [Codec.producedFrom]
  | cons ch t ih =>
    have h := ih (pre ++ [ch])
    simp only [List.flatten_append, List.flatten_cons, List.flatten_nil, List.append_nil] at h
    rw [go_append] at h
    rw [List.flatten_cons, go_append]
    simp only [Codec.producedFrom, codec, List.length_append] at h ⊢
    have : ((if (go (go St.h0 pre.flatten).fst ch).1 = St.err then none else some (go (go St.h0 pre.flatten).fst ch).2).getD [] : Bytes).length
        ≤ (go (go St.h0 pre.flatten).fst ch).2.length := by
      split <;> simp
    omega

instance tame : TameZlib where
  ratio := by
    intro k c hc hist
    have : c = codec := by
      simp only [Zlib.codec] at hc
      split at hc <;> simp_all
    subst this
    have h1 := produced_le hist []
    simp only [List.flatten_nil, go] at h1
    have h2 : (go .h0 hist.flatten).2.length + (codec.unused hist).length ≤ hist.flatten.length := by
      simp only [codec]
      split
      · rename_i u hu
        exact (go_size _ .h0 (fun _ h => by cases h) u hu).1
      · have := go_out hist.flatten .h0
        simpa using this
    simp only [Zlib.ratio, Codec.produced]
    omega
  used := by
    intro k c hc hist hu
    have : c = codec := by
      simp only [Zlib.codec] at hc
      split at hc <;> simp_all
    subst this
    simp only [codec] at hu ⊢
    split
    · rename_i u hu'
      exact (go_size _ .h0 (fun _ h => by cases h) u hu').2
    · rename_i h
      split at hu
      · rename_i u hu'
        exact absurd hu' (h u)
      · exact absurd rfl hu

end Warcio.Toy

namespace Warcio.Toy

/-- Part of a member. -/
theorem cutOff {d p : Bytes} (hp : p <+: compress d) (h0 : p ≠ []) : lawful.CutOff p (go .h0 p).2 where
  part := ⟨_, d, rfl, hp⟩
  some := h0
  out := by
    intro hist hne e
    have hc : (go .h0 hist.flatten).1 ≠ .err := by
      rw [e]
      intro he
      obtain ⟨t, ht⟩ := hp
      have := go_compress d
      rw [← ht, go_append, he, go_err] at this
      cases this
    show codec.run hist = _
    rw [run_eq hist hc, e]
  ratio := by
    show _ ≤ 1 * _
    have := go_out p .h0
    omega

end Warcio.Toy

namespace Warcio.Toy

/-- What a state may still use without giving anything. -/
def St.idle : St → Nat
  | .h0 => 3
  | .h1 _ => 2
  | .body => 1
  | _ => 0

theorem go_dense (x : Bytes) : ∀ s : St, (go s x).1 ≠ .err → (∀ u, (go s x).1 = .done u → u = []) → x.length ≤ 2 * (go s x).2.length + s.idle := by
  induction x with
  | nil => intro s _ _; simp
  | cons b t ih =>
    intro s h1 h2
    simp only [go] at h1 h2 ⊢
    have h3 := ih (step s b).1 h1 h2
    rw [List.length_append, List.length_cons]
    cases s with
    | h0 => simp only [step, St.idle] at h3 ⊢; omega
    | h1 a =>
      simp only [step] at h3 h1 ⊢
      split at h3
      · rename_i hc; rw [if_pos hc] ; simp only [St.idle] at h3 ⊢; omega
      · rename_i hc; rw [if_neg hc, go_err] at h1; exact absurd rfl h1
    | body =>
      simp only [step] at h3 h1 ⊢
      split at h3
      · rename_i hc; rw [if_pos hc] ; simp only [St.idle] at h3 ⊢; omega
      · rename_i hc
        split at h3
        · rename_i hc'; rw [if_neg hc, if_pos hc'] ; simp only [St.idle] at h3 ⊢; omega
        · rename_i hc'; rw [if_neg hc, if_neg hc', go_err] at h1; exact absurd rfl h1
    | lit => simp only [step, St.idle, List.length_cons, List.length_nil] at h3 ⊢; omega
    | done u =>
      simp only [step, go_done] at h2
      have := h2 _ rfl
      simp at this
    | err => simp only [step, go_err] at h1; exact absurd rfl h1

/-- The toy format is decompressed steadily. -/
theorem toy_steady {b m : Nat} {d : Bytes} (h : 2 * m + 3 ≤ b) : Steady b m (compress d) := by
  intro c hc hist ch o _ hne hl hp ho
  right
  obtain rfl : codec = c := by
    have : Zlib.codec .gzip = some codec := rfl
    rw [this] at hc; cases hc; rfl
  obtain ⟨y, hy⟩ := hp
  have hz := go_compress d
  rw [← hy, go_append, go_append] at hz
  simp only [Prod.mk.injEq] at hz
  have h1 : (go (go .h0 hist.flatten).1 ch).1 ≠ .err := by
    intro he; rw [he, go_err] at hz; simp at hz
  have h2 : ∀ u, (go (go .h0 hist.flatten).1 ch).1 = .done u → u = [] := by
    intro u hu
    rw [hu, go_done] at hz
    simp only [St.done.injEq, List.append_eq_nil_iff] at hz
    exact hz.1.1
  have h3 := go_dense ch _ h1 h2
  have h4 : ∀ s : St, s.idle ≤ 3 := by intro s; cases s <;> simp [St.idle]
  have h5 := h4 (go .h0 hist.flatten).1
  simp only [codec, if_neg h1, Option.some.injEq] at ho
  rw [← ho]
  omega

end Warcio.Toy
