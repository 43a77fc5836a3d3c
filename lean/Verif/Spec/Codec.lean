import Verif.Model.BufferedReaders

/-!
# What is assumed of zlib

`IsMember z d` is to be read as: `z` is one complete gzip member whose data is `d`.
-/

namespace Warcio

/-- All output of a decompressor fed with the chunks `hist` after `pre`; `none` if a call
raised. -/
def Codec.runFrom (c : Codec) (pre : List Bytes) : List Bytes → Option Bytes
  | [] => some []
  | ch :: t =>
    match c.out pre ch with
    | none => none
    | some o =>
      match Codec.runFrom c (pre ++ [ch]) t with
      | none => none
      | some o' => some (o ++ o')

/-- All output of a fresh decompressor fed with `hist`. -/
def Codec.run (c : Codec) (hist : List Bytes) : Option Bytes := c.runFrom [] hist

/-- The laws of `zlib.decompressobj(16 + MAX_WBITS)` used in the proofs.  The input may be
cut into non-empty chunks in any way. -/
structure LawfulGzip [Zlib] (IsMember : Bytes → Bytes → Prop) where
  codec : Codec
  codec_eq : Zlib.codec .gzip = some codec
  /-- Fed with part of a member, the decompressor has delivered part of its data; fed with
  all of it, all of its data; what goes beyond the member is `unused_data`. -/
  member : ∀ {z d : Bytes} {hist : List Bytes}, IsMember z d → (∀ ch ∈ hist, ch ≠ []) →
    (hist.flatten <+: z ∨ z <+: hist.flatten) →
    ∃ o, codec.run hist = some o ∧ o <+: d ∧ (z <+: hist.flatten → o = d) ∧
      codec.unused hist = hist.flatten.drop z.length
  /-- A first chunk of at least two bytes that is not the start of a gzip header raises. -/
  notGzip : ∀ {ch : Bytes}, 2 ≤ ch.length → ¬ [0x1f, 0x8b] <+: ch → codec.out [] ch = none
  /-- Before anything is fed nothing is unused. -/
  unused_nil : codec.unused [] = []
  /-- One byte is not enough to tell anything: no output, no error, nothing unused. -/
  oneByte : ∀ b : UInt8, codec.out [] [b] = some [] ∧ codec.unused [[b]] = []
  /-- Decompression expands at most by a constant factor (1032 for deflate). -/
  ratio : ∀ {z d : Bytes}, IsMember z d → d.length ≤ Zlib.ratio * z.length
  /-- A member starts with the gzip magic. -/
  magic : ∀ {z d : Bytes}, IsMember z d → [0x1f, 0x8b] <+: z

/-- `p` is what there is of a gzip member, `o` what the decompressor has delivered when it has been fed with all of `p`, however `p` is cut into chunks. -/
structure LawfulGzip.CutOff [Zlib] {IsMember : Bytes → Bytes → Prop} (L : LawfulGzip IsMember) (p o : Bytes) : Prop where
  part : ∃ z d, IsMember z d ∧ p <+: z
  some : p ≠ []
  out : ∀ hist : List Bytes, (∀ ch ∈ hist, ch ≠ []) → hist.flatten = p → L.codec.run hist = .some o
  ratio : o.length ≤ Zlib.ratio * p.length

/-- Decompressing the data `z`, once begun, goes on steadily: another whole block of `b` bytes of `z` gives nothing or at least `m` bytes.
True of any `z` of at most `b` bytes.  What deflate compressors write expands: a code for one byte has at most 15 bits, one for three or more bytes at most 48, so blocks of 16384 bytes give about 8000 bytes or more. -/
def Steady [Zlib] (b m : Nat) (z : Bytes) : Prop :=
  ∀ c, Zlib.codec .gzip = some c → ∀ (hist : List Bytes) (ch o : Bytes), hist ≠ [] → (∀ x ∈ hist, x ≠ []) → ch.length = b →
    hist.flatten ++ ch <+: z → c.out hist ch = some o → o = [] ∨ m ≤ o.length

theorem steady_of_le [Zlib] {b m : Nat} {z : Bytes} (h : z.length ≤ b) : Steady b m z := by
  intro c _ hist ch o h1 h2 h3 h4
  exfalso
  have h5 := h4.length_le
  rw [List.length_append] at h5
  match hist, h1 with
  | x :: t, _ =>
    have := List.length_pos_iff.2 (h2 x (by simp))
    simp only [List.flatten_cons, List.length_append] at h5
    omega

theorem steady_all [Zlib] {b m : Nat} {zs : List Bytes} (h : ∀ z ∈ zs, z.length ≤ b) : ∀ z ∈ zs, Steady b m z :=
  fun z hz => steady_of_le (h z hz)

theorem Steady.mono [Zlib] {b m n : Nat} {z : Bytes} (h : Steady b m z) (hn : n ≤ m) : Steady b n z :=
  fun c h0 hist ch o h1 h2 h3 h4 h5 => (h c h0 hist ch o h1 h2 h3 h4 h5).imp id (fun h6 => Nat.le_trans hn h6)

end Warcio

namespace Warcio

/-- How much a decompressor fed with the chunks `hist` after `pre` has delivered; a call that
raises delivers nothing. -/
def Codec.producedFrom (c : Codec) (pre : List Bytes) : List Bytes → Nat
  | [] => 0
  | ch :: t => ((c.out pre ch).getD []).length + c.producedFrom (pre ++ [ch]) t

/-- How much a fresh decompressor fed with `hist` has delivered. -/
def Codec.produced (c : Codec) (hist : List Bytes) : Nat := c.producedFrom [] hist

/-- What is assumed of decompressors fed with arbitrary data: they expand what they use by at most
a constant factor (about 1032 for deflate), and if they leave data unused they have used some. -/
class TameZlib [Zlib] : Prop where
  ratio : ∀ {k : DType} {c : Codec}, Zlib.codec k = some c → ∀ hist : List Bytes,
    c.produced hist + Zlib.ratio * (c.unused hist).length ≤ Zlib.ratio * hist.flatten.length
  used : ∀ {k : DType} {c : Codec}, Zlib.codec k = some c → ∀ hist : List Bytes,
    c.unused hist ≠ [] → (c.unused hist).length < hist.flatten.length

end Warcio
