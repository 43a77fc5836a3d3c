import Verif.Spec.Again
import Verif.Props.Recheck
import Verif.Props.Groupings

/-!
# C84: recompressing a file that has been recompressed
-/

namespace Warcio.Props
open Warcio ArchiveIter Recompressor

set_option linter.unusedSectionVars false

section
variable [PyUni] [Hashlib] [Zlib] [Deflater] {IsMember : Bytes → Bytes → Prop}

theorem out_members {f : Bytes → Bytes} {gzip : Bool} {m : Nat} : ∀ {xs : List (WarcRecord × Bytes)} {out : List (Bytes × WarcRecord)}, Copied IsMember f gzip xs out → gzip = true →
    Each (fun x z => IsMember z x.1.bytes) (Props.again xs out) (out.map (·.1))
  | _, _, .nil, _ => .nil
  | x :: xs, y :: ys, .cons h1 h2, hg => by
    refine .cons ?_ (out_members (m := m) h2 hg)
    have := h1.2
    rw [hg] at this
    exact this

theorem same_members {out : List (Bytes × WarcRecord)} {out' : List (Bytes × WarcRecord)} (h : out'.map (·.2) = out.map (·.2)) (hs : ∀ y ∈ out', Stored IsMember true y.1 y.2) :
    Each (fun y z => IsMember z y.2.bytes) out (out'.map (·.1)) := by
  induction out generalizing out' with
  | nil =>
    cases out' with
    | nil => exact .nil
    | cons _ _ => cases h
  | cons y out ih =>
    cases out' with
    | nil => cases h
    | cons y' out' =>
      simp only [List.map_cons, List.cons.injEq] at h
      refine .cons ?_ (ih h.2 (fun z hz => hs z (by simp [hz])))
      rw [← h.1]
      exact hs y' (by simp)

/-- What was copied is copied as it is. -/
theorem recopied (L : LawfulGzip IsMember) (D : LawfulDeflater IsMember) {f : Bytes → Bytes} (H : Hashlib.hash (lit "sha1") = some f) {c : BuilderCfg} (hf : c.filter = some) (hc : c.gzip = true)
    {m : Nat} {xs : List (WarcRecord × Bytes)} (hne : xs ≠ []) (hw : ∀ x ∈ xs, x.1.Rewritable m x.2)
    (hd : ∀ x ∈ xs, x.1.value (lit "WARC-Block-Digest") ≠ some [] ∧ x.1.value (lit "WARC-Payload-Digest") ≠ some [])
    {out : List (Bytes × WarcRecord)} (ho : Copied IsMember f true xs out) {g : FileObj} (hg : g.rest = out.flatMap (·.1)) (hr : ReadsGz g 16384 m (out.map (·.1))) (ids : Nat → Str) (more : List Nat) :
    ∃ zs : List Bytes, Each (fun y z => IsMember z y.2.bytes) out zs ∧ recompress c ids g more = (.noErrors xs.length, ({} : OutFile).extended zs.flatten) := by
  obtain ⟨k1, k2, k3⟩ := ho.again hw hd
  have hne' : Props.again xs out ≠ [] := by
    intro h
    rw [h] at k3
    exact hne (List.length_eq_zero_iff.1 k3.symm)
  obtain ⟨out', o1, o2⟩ := C60_gzip L D H hf hc hne' (fun x hx => (k1 x hx).1) (out_members (m := m) ho rfl) (by rw [hg]; rfl) hr ids more
  obtain ⟨o3, o4⟩ := o1.normal (fun x hx => ⟨(k1 x hx).2, (k1 x hx).1.oneLength⟩)
  refine ⟨out'.map (·.1), same_members (by rw [o3, k2]) o4, ?_⟩
  rw [o2, k3]; rfl

theorem each_trans_members {f : Bytes → Bytes} : ∀ {xs : List (WarcRecord × Bytes)} {out : List (Bytes × WarcRecord)} {zs : List Bytes}, Copied IsMember f true xs out →
    Each (fun y z => IsMember z y.2.bytes) out zs → Each (fun z z' => ∃ d, IsMember z d ∧ IsMember z' d) (out.map (·.1)) zs
  | _, _, _, .nil, .nil => .nil
  | _ :: _, _ :: _, _ :: _, .cons h1 h2, .cons h3 h4 => .cons ⟨_, h1.2, h3⟩ (each_trans_members h2 h4)

/-- A file that can be recompressed: records that can be rewritten without loss, without compression, each in a gzip member, all in one, or grouped into members in any other way with at least one record in each. -/
inductive Recompressible (IsMember : Bytes → Bytes → Prop) (m : Nat) (xs : List (WarcRecord × Bytes)) (g : FileObj) : Prop
  | plain : g.rest = xs.flatMap (·.1.bytes) → Reads g 16384 m → Recompressible IsMember m xs g
  | gzip (zs : List Bytes) : Each (fun x z => IsMember z x.1.bytes) xs zs → g.rest = zs.flatten → ReadsGz g 16384 m zs → Recompressible IsMember m xs g
  | member : 2 ≤ xs.length → m ≤ 16384 → g.pos = 0 → g.seekable = true → IsMember g.rest (xs.flatMap (·.1.bytes)) → ReadsGz g 16384 m [g.rest] → Recompressible IsMember m xs g
  | groups (ms : List (Bytes × List (WarcRecord × Bytes))) : (∀ x ∈ ms, IsMember x.1 (x.2.flatMap (·.1.bytes)) ∧ x.2 ≠ []) → xs = ms.flatMap (·.2) → NoRun 65536 (ms.map (fun x => x.2.flatMap (·.1.bytes))) →
      m ≤ 16384 → g.pos = 0 → g.seekable = true → g.rest = ms.flatMap (·.1) → ReadsGz g 16384 m (ms.map (·.1)) → Recompressible IsMember m xs g

theorem Recompressible.run {IsOut : Bytes → Bytes → Prop} (L : LawfulGzip IsMember) (D : LawfulDeflater IsOut) {f : Bytes → Bytes} (H : Hashlib.hash (lit "sha1") = some f) {c : BuilderCfg} (hf : c.filter = some) (hc : c.gzip = true)
    {m : Nat} {xs : List (WarcRecord × Bytes)} (hne : xs ≠ []) (hw : ∀ x ∈ xs, x.1.Rewritable m x.2) {g : FileObj} (h : Recompressible IsMember m xs g) (ids : Nat → Str) (more : List Nat) :
    ∃ out o, Copied IsOut f true xs out ∧ (o = .noErrors xs.length ∨ o = .fixed xs.length) ∧ recompress c ids g more = (o, ({} : OutFile).extended (out.flatMap (·.1))) := by
  cases h with
  | plain h1 h2 =>
    obtain ⟨out, o1, o2⟩ := C60_plain L D H hf hc hw h1 h2 ids more
    exact ⟨out, _, o1, .inl rfl, o2⟩
  | gzip zs h1 h2 h3 =>
    obtain ⟨out, o1, o2⟩ := C60_gzip L D H hf hc hne hw h1 h2 h3 ids more
    exact ⟨out, _, o1, .inl rfl, o2⟩
  | member h1 h2 h3 h4 h5 h6 =>
    obtain ⟨out, o1, o2⟩ := C60_one_member_partial L D H hf hc h1 hw h2 h3 h4 h5 h6 ids more
    exact ⟨out, _, o1, .inr rfl, o2⟩
  | groups ms h1 h2 h3 h4 h5 h6 h7 h8 =>
    subst h2
    obtain ⟨out, o1, o2⟩ := C60_groups_partial L D H h5 h6 (by rintro rfl; exact hne rfl) h1 h7 h3 h4 hw h8 hf ids more
    rw [hc] at o1
    exact ⟨out, _, o1, by split; exact .inl rfl; exact .inr rfl, o2⟩

/-- C84: a file is recompressed, and the new file is recompressed again: no errors are found, the number of records is the same, and member by member
the data is the same.
Partial: for records that can be rewritten without loss (`Rewritable`), without empty digest headers (a digest would be added each time), and groupings as in C60. -/
theorem C84_twice_partial (L : LawfulGzip IsMember) (D : LawfulDeflater IsMember) {f : Bytes → Bytes} (H : Hashlib.hash (lit "sha1") = some f) {c : BuilderCfg} (hf : c.filter = some) (hc : c.gzip = true)
    {m : Nat} {xs : List (WarcRecord × Bytes)} (hne : xs ≠ []) (hw : ∀ x ∈ xs, x.1.Rewritable m x.2)
    (hd : ∀ x ∈ xs, x.1.value (lit "WARC-Block-Digest") ≠ some [] ∧ x.1.value (lit "WARC-Payload-Digest") ≠ some [])
    {g : FileObj} (hg : Recompressible IsMember m xs g) (ids : Nat → Str) (more : List Nat) :
    ∃ (zs : List Bytes) (o : Recompressor.Outcome), (o = .noErrors xs.length ∨ o = .fixed xs.length) ∧ recompress c ids g more = (o, ({} : OutFile).extended zs.flatten) ∧
      ∀ {g' : FileObj}, g'.rest = zs.flatten → ReadsGz g' 16384 m zs → ∀ ids' more', ∃ zs' : List Bytes,
        recompress c ids' g' more' = (.noErrors xs.length, ({} : OutFile).extended zs'.flatten) ∧ Each (fun z z' => ∃ d, IsMember z d ∧ IsMember z' d) zs zs' := by
  obtain ⟨out, o, o1, o2, o3⟩ := hg.run L D H hf hc hne hw ids more
  refine ⟨out.map (·.1), o, o2, by rw [o3]; rfl, ?_⟩
  intro g' h1 h2 ids' more'
  obtain ⟨zs', k1, k2⟩ := recopied L D H hf hc hne hw hd o1 (by rw [h1]; rfl) h2 ids' more'
  exact ⟨zs', k2, each_trans_members o1 k1⟩

/-- The members that the compressor writes. -/
def Own [Deflater] (IsMember : Bytes → Bytes → Prop) (z d : Bytes) : Prop := IsMember z d ∧ ∃ ws : List Bytes, ws.flatten = d ∧ z = Deflater.outFrom [] ws ++ Deflater.flush ws

/-- The laws hold for fewer members. -/
def ownGzip (L : LawfulGzip IsMember) : LawfulGzip (Own IsMember) where
  codec := L.codec
  codec_eq := L.codec_eq
  member h := L.member h.1
  notGzip := L.notGzip
  unused_nil := L.unused_nil
  oneByte := L.oneByte
  ratio h := L.ratio h.1
  magic h := L.magic h.1

omit [Zlib] [PyUni] [Hashlib] in
theorem ownDeflater (D : LawfulDeflater IsMember) : LawfulDeflater (Own IsMember) := fun ws => ⟨D ws, ws, rfl, rfl⟩

omit [Zlib] [PyUni] [Hashlib] in
theorem own_unique (hu : Deflater.Uniform) {z z' d : Bytes} (h : Own IsMember z d) (h' : Own IsMember z' d) : z = z' := by
  obtain ⟨-, ws, h1, rfl⟩ := h
  obtain ⟨-, vs, h2, rfl⟩ := h'
  exact hu ws vs (h1.trans h2.symm)

omit [Zlib] [PyUni] [Hashlib] in
theorem own_same (hu : Deflater.Uniform) : ∀ {zs zs' : List Bytes}, Each (fun z z' => ∃ d, Own IsMember z d ∧ Own IsMember z' d) zs zs' → zs' = zs
  | _, _, .nil => rfl
  | _, _, .cons ⟨d, h1, h2⟩ h3 => by rw [own_same hu h3, own_unique hu h1 h2]

/-- C84 for a compressor whose output depends on the data alone: if a file is recompressed, whoever compressed it before, and the new file again, the two new files are the same, byte by byte.
Partial as `C84_twice_partial`. -/
theorem C84_fixed_point_partial (L : LawfulGzip IsMember) (D : LawfulDeflater IsMember) (hu : Deflater.Uniform) {f : Bytes → Bytes} (H : Hashlib.hash (lit "sha1") = some f) {c : BuilderCfg}
    (hf : c.filter = some) (hc : c.gzip = true) {m : Nat} {xs : List (WarcRecord × Bytes)} (hne : xs ≠ []) (hw : ∀ x ∈ xs, x.1.Rewritable m x.2)
    (hd : ∀ x ∈ xs, x.1.value (lit "WARC-Block-Digest") ≠ some [] ∧ x.1.value (lit "WARC-Payload-Digest") ≠ some [])
    {g : FileObj} (hg : Recompressible IsMember m xs g) (ids : Nat → Str) (more : List Nat) :
    ∃ (zs : List Bytes) (o : Recompressor.Outcome), (o = .noErrors xs.length ∨ o = .fixed xs.length) ∧ recompress c ids g more = (o, ({} : OutFile).extended zs.flatten) ∧
      ∀ {g' : FileObj}, g'.rest = zs.flatten → ReadsGz g' 16384 m zs → ∀ ids' more', recompress c ids' g' more' = (.noErrors xs.length, ({} : OutFile).extended zs.flatten) := by
  obtain ⟨out, o, o1, o2, o3⟩ := hg.run L (ownDeflater D) H hf hc hne hw ids more
  refine ⟨out.map (·.1), o, o2, by rw [o3]; rfl, ?_⟩
  intro g' h1 h2 ids' more'
  obtain ⟨zs', k1, k2⟩ := recopied (ownGzip L) (ownDeflater D) H hf hc hne hw hd o1 (by rw [h1]; rfl) h2 ids' more'
  rw [k2, own_same hu (each_trans_members o1 k1)]

open Cli in
/-- C84 at the command line: `warcio recompress a b` and then `warcio recompress b c` leave the same in `b` and `c`.  Partial as `C84_twice_partial`. -/
theorem C84_cli_partial (L : LawfulGzip IsMember) (D : LawfulDeflater IsMember) (hu : Deflater.Uniform) {f : Bytes → Bytes} (H : Hashlib.hash (lit "sha1") = some f)
    {m : Nat} {xs : List (WarcRecord × Bytes)} (hne : xs ≠ []) (hw : ∀ x ∈ xs, x.1.Rewritable m x.2)
    (hd : ∀ x ∈ xs, x.1.value (lit "WARC-Block-Digest") ≠ some [] ∧ x.1.value (lit "WARC-Payload-Digest") ≠ some []) (ids ids' : Nat → Str) {a b c : Str} (ha : FileName a) (hb : FileName b) (hc : FileName c)
    (hab : a ≠ b) (hbc : b ≠ c) {w : World} (hwb : w.writable b = true) {data : Bytes} (h : w.files a = some data) (hg : Recompressible IsMember m xs { content := data }) :
    let (x, w') := run ids (.recompress a b false) w
    x = .done ∧ ∃ zs : List Bytes, zs.length = xs.length ∧ w'.files b = some zs.flatten ∧
      (m = 0 ∨ (∀ z ∈ zs, Steady 16384 m z) → w'.writable c = true →
        let (x', w'') := run ids' (.recompress b c false) w'
        x' = .done ∧ w''.files c = some zs.flatten) := by
  obtain ⟨out, o, o1, o2, o3⟩ := hg.run L (ownDeflater D) H (c := { gzip := true }) rfl rfl hne hw ids []
  have key := C82_recompress ids ha hb hab hwb h
  rw [o3] at key
  generalize Cli.run ids (.recompress a b false) w = y at key ⊢
  obtain ⟨x, w'⟩ := y
  have hx : x = .done := by
    rcases o2 with rfl | rfl
    all_goals exact congrArg Prod.fst key.2
  dsimp only at key ⊢
  have hc' : w'.files b = some (out.map (·.1)).flatten := by rw [key.1]; rfl
  refine ⟨hx, out.map (·.1), ?_, hc', ?_⟩
  · rw [List.length_map]; exact each_len o1
  intro hz hwc
  obtain ⟨zs', k1, k2⟩ := recopied (ownGzip L) (ownDeflater D) H (c := { gzip := true }) rfl rfl hne hw hd o1 (g := { content := (out.map (·.1)).flatten }) (by simp [FileObj.rest]; rfl)
    ⟨by decide, hz.imp id (fun h => ⟨rfl, h⟩)⟩ ids' []
  rw [own_same hu (each_trans_members o1 k1)] at k2
  have key' := C82_recompress ids' hb hc hbc hwc hc'
  rw [k2] at key'
  dsimp only at key'
  generalize Cli.run ids' (.recompress b c false) w' = y' at key' ⊢
  obtain ⟨x', w''⟩ := y'
  dsimp only at key' ⊢
  exact ⟨congrArg Prod.fst key'.2, by rw [key'.1]; rfl⟩

end

section
open Toy

/-- The toy compressor is uniform. -/
theorem toy_uniform : Deflater.Uniform := by
  intro ws vs h
  rw [outFrom_nil, outFrom_nil]
  exact congrArg (fun d => [] ++ compress d) h

/-- The hypotheses of `C84_fixed_point_partial` and `C84_cli_partial` are met (those of the others: see `C60_plain`). -/
example : Deflater.Uniform ∧ Recompressible IsMember 17 exRecords exFile ∧ Recompressible IsMember 17 exRecords exGz ∧ Recompressible IsMember 17 exRecords exOne :=
  ⟨toy_uniform, .plain rfl ⟨by decide, by simp [exFile], .inr ⟨rfl, by decide⟩⟩,
    .gzip [compress exHttp.bytes, compress exInfo.bytes] (.cons rfl (.cons rfl .nil)) rfl (.fit (by decide) rfl (by decide +kernel)),
    .member (by decide) (by decide) rfl rfl rfl (.fit (by decide) rfl (by decide +kernel))⟩

/-- So are those of `C84_twice_partial` by five records in three members. -/
example : Recompressible IsMember 17 (exGrouping.flatMap (·.2)) { content := exGrouping.flatMap (·.1) } :=
  .groups exGrouping (by
    intro x hx
    simp only [exGrouping, List.map_cons, List.map_nil, List.mem_cons, List.not_mem_nil, or_false] at hx
    rcases hx with rfl | rfl | rfl
    all_goals exact ⟨rfl, List.cons_ne_nil _ _⟩) rfl (by decide +kernel) (by decide) rfl rfl rfl (.fit (by decide) rfl (by decide +kernel))

/-- A record whose block digest is the empty text. -/
def exEmptySum : Bytes := utf8Encode (lit "WARC/1.0\r\nWARC-Type: metadata\r\nWARC-Block-Digest: \r\nContent-Length: 1\r\n\r\nx\r\n\r\n")

/-- C84 fails for records with an empty digest header: each time they are recompressed, another digest is added (here with a compressor that writes two
bytes for each byte of data). -/
theorem C84_grows : let r := recompress {} (fun _ => []) { content := exEmptySum } []
    let q := recompress {} (fun _ => []) { content := r.2.content } []
    r.1 = .noErrors 1 ∧ q.1 = .noErrors 1 ∧ r.2.content.length < q.2.content.length := by
  decide +kernel

end
end Warcio.Props
