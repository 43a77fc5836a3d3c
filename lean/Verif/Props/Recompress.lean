import Verif.Proofs.Rewrite
import Verif.Props.ReadBack
import Verif.Props.ReadAll

/-!
# Properties C44 and C60: rewriting what was read, `warcio recompress`

Specification: `Verif/Spec/Rewrite.lean`.
-/

set_option linter.unusedSectionVars false

namespace Warcio.Props

open Warcio Writer Builder ArchiveIter Recompressor

section
variable [PyUni] [Hashlib] [Deflater] [Zlib] {IsMember : Bytes → Bytes → Prop}

/-- What is written for a record: its bytes, or a member that holds them. -/
def Stored (IsMember : Bytes → Bytes → Prop) (gzip : Bool) (z : Bytes) (w : WarcRecord) : Prop :=
  if gzip then IsMember z w.bytes else z = w.bytes

/-- Each record `x` with the payload `p` was rewritten, and stored as `z`. -/
def Copied (IsMember : Bytes → Bytes → Prop) (f : Bytes → Bytes) (gzip : Bool) : List (WarcRecord × Bytes) → List (Bytes × WarcRecord) → Prop :=
  Each (fun x y => x.1.Rewritten f x.2 y.2 ∧ Stored IsMember gzip y.1 y.2)

theorem copyLoop_shown {α σ : Type} [PyStream σ] (D : LawfulDeflater IsMember) {f : Bytes → Bytes} (H : Hashlib.hash (lit "sha1") = some f) {c : BuilderCfg} (hf : c.filter = some)
    {R : α → WarcRecord → Prop} {P : α → Bytes} {io : IterOpts} (hn : io.noRecordParse = false) (he : io.ensureHttpHeaders = false) {m : Nat} {multi : Bool} {l : PyErr} :
    ∀ (xs : List α) (es : List Expected), Each (fun x e => ∀ rec left, e.shows rec left → ∃ w : WarcRecord, R x w ∧ w.Shaped m (P x) ∧ w.Shows io m rec left) xs es →
      ∀ (fuel : Nat) (it : ArchiveIter σ) (o : OutFile) (n : Nat), Ready multi (some l) it es → xs.length < fuel → o.AtEnd →
      ∃ out : List (Bytes × WarcRecord), Each (fun x y => (∃ w, R x w ∧ w.Rewritten f (P x) y.2) ∧ Stored IsMember c.gzip y.1 y.2) xs out ∧
        copyLoop c fuel it o n = (if l = .stopIteration then .ok (n + xs.length) else .error l, o.extended (out.flatMap (·.1)))
  | _, _, .nil, 0, _, _, _, _, h, _ => by omega
  | _, _, .nil, fuel + 1, it, o, n, hr, _, ho => by
    obtain ⟨it', k1⟩ := hr.stop
    refine ⟨[], .nil, ?_⟩
    unfold copyLoop
    rw [k1, List.flatMap_nil, extended_nil ho]
    cases l <;> rfl
  | _, _, .cons _ _, 0, _, _, _, _, h, _ => by omega
  | x :: xs, e :: es, .cons hx hxs, fuel + 1, it, o, n, hr, hfu, ho => by
    obtain ⟨it1, rec, left, k1, k2, k3, k4⟩ := hr.record
    obtain ⟨w, hR, hwx, k3⟩ := hx rec left k3
    obtain ⟨hb, p1, p2, p3, p4⟩ := read_parts hwx k3 hn he it1.raw
    have hreg := read_regular hwx k3 it1.raw
    have hrew := read_rewritten hwx k3 f it1.raw p1 p2
    obtain ⟨ws, r', q1, q2, left', q3⟩ := copy_step (rec := withRaw rec it1.raw) H c k4 rfl (hf ▸ p3) p4 hreg.protocol_ne ho
    generalize hz : (if c.gzip = true then Deflater.outFrom [] ws ++ Deflater.flush ws else ws.flatten) = z at q1
    obtain ⟨out, o1, o2⟩ := copyLoop_shown D H hf hn he xs es hxs fuel _ (o.extended z) (n + 1) q3.ready
      (by simp only [List.length_cons] at hfu; omega) (extended_atEnd _ _)
    refine ⟨(z, fileRecord f hb left (OutRecord.ofRead (withRaw rec it1.raw))) :: out, .cons ⟨⟨w, hR, hrew⟩, ?_⟩ o1, ?_⟩
    · show Stored IsMember c.gzip z _
      unfold Stored
      rw [fileRecord_bytes, ← hz]
      have q2' : ws.flatten = recordBytes (OutRecord.ofRead (withRaw rec it1.raw)).recHeaders.protocol (OutRecord.ofRead (withRaw rec it1.raw)).recHeaders.statusline
        (writtenHeaders f (OutRecord.ofRead (withRaw rec it1.raw)) hb left) (blockOf (OutRecord.ofRead (withRaw rec it1.raw)) hb left) := q2
      rw [← q2']
      split
      · exact D ws
      · rfl
    · have hcur : it1.current = some (withRaw rec it1.raw) := by rw [current_eq, k2]; rfl
      unfold copyLoop
      rw [k1]
      dsimp only
      rw [hcur]
      dsimp only
      rw [q1]
      dsimp only
      rw [o2, extended_extended]
      simp only [List.flatMap_cons, List.length_cons, Nat.add_assoc, Nat.add_comm 1]

theorem each_imp {α β : Type} {R S : α → β → Prop} : ∀ {as : List α} {bs : List β}, Each R as bs → (∀ a ∈ as, ∀ b, R a b → S a b) → Each S as bs
  | _, _, .nil, _ => .nil
  | _, _, .cons h t, f => .cons (f _ (List.mem_cons_self ..) _ h) (each_imp t (fun a ha => f a (List.mem_cons_of_mem _ ha)))

theorem copyLoop_ready {σ : Type} [PyStream σ] (D : LawfulDeflater IsMember) {f : Bytes → Bytes} (H : Hashlib.hash (lit "sha1") = some f) {c : BuilderCfg} (hf : c.filter = some)
    {io : IterOpts} (hn : io.noRecordParse = false) (he : io.ensureHttpHeaders = false) {m : Nat} {multi : Bool} {l : PyErr}
    (xs : List (WarcRecord × Bytes)) (es : List Expected) (hx : Each (fun x e => e.shows = WarcRecord.Shows x.1 io m) xs es) (hw : ∀ x ∈ xs, x.1.Rewritable m x.2)
    (fuel : Nat) (it : ArchiveIter σ) (o : OutFile) (n : Nat) (hr : Ready multi (some l) it es) (hfu : xs.length < fuel) (ho : o.AtEnd) :
    ∃ out : List (Bytes × WarcRecord), Copied IsMember f c.gzip xs out ∧
      copyLoop c fuel it o n = (if l = .stopIteration then .ok (n + xs.length) else .error l, o.extended (out.flatMap (·.1))) := by
  obtain ⟨out, h1, h2⟩ := copyLoop_shown (R := fun x w => w = x.1) (P := (·.2)) D H hf hn he xs es
    (each_imp hx (fun x hx e h rec left hs => ⟨x.1, rfl, (hw x hx).shaped, by rw [← h]; exact hs⟩)) fuel it o n hr hfu ho
  refine ⟨out, each_imp h1 ?_, h2⟩
  rintro x - y ⟨⟨w, rfl, k1⟩, k2⟩
  exact ⟨k1, k2⟩

omit [Deflater] in
theorem open_bound {f : FileObj} {io : IterOpts} {bs : Nat} {kf : Option Format} {it : ArchiveIter Source} (h : openArchive f io bs kf = .ok it) :
    f.rest.length ≤ PyStream.bound it.reader := by
  unfold openArchive ArchiveIter.new at h
  cases hr : BufReader.new (Source.of f) bs (some .gzip) with
  | error e => rw [hr] at h; cases h
  | ok r =>
    rw [hr] at h
    cases h
    have hs : r.stream = Source.of f := by
      unfold BufReader.new at hr
      simp only at hr
      split at hr
      · cases hr; rfl
      · cases hr
    have hb : f.rest.length ≤ PyStream.bound (Source.of f) := by
      unfold Source.of
      split <;> exact Nat.le_refl _
    show _ ≤ BufReader.bound r
    unfold BufReader.bound
    rw [hs]
    refine Nat.le_trans hb (Nat.le_trans ?_ (Nat.le_add_left _ _))
    refine Nat.le_trans ?_ (Nat.le_mul_of_pos_left _ (by omega))
    exact Nat.le_add_left _ _

theorem each_placed {io : IterOpts} {m : Nat} : ∀ (xs : List (WarcRecord × Bytes)) (off : Int),
    Each (fun x e => e.shows = WarcRecord.Shows x.1 io m) xs (WarcRecord.placed io m off (xs.map (·.1)))
  | [], _ => .nil
  | _ :: xs, _ => .cons rfl (each_placed xs _)

theorem each_placedGz {io : IterOpts} {m : Nat} : ∀ (xs : List (WarcRecord × Bytes)) (ms : List (Bytes × WarcRecord)) (off : Int), ms.map (·.2) = xs.map (·.1) →
    Each (fun x e => e.shows = WarcRecord.Shows x.1 io m) xs (WarcRecord.placedGz io m off ms)
  | [], [], _, _ => .nil
  | [], _ :: _, _, h => by cases h
  | _ :: _, [], _, h => by cases h
  | x :: xs, (z, w) :: ms, _, h => by
    simp only [List.map_cons, List.cons.injEq] at h
    refine .cons ?_ (each_placedGz xs ms _ h.2)
    show WarcRecord.Shows w io m = _
    rw [h.1]

omit [PyUni] [Hashlib] [Deflater] [Zlib] in
theorem length_le_flatMap {α : Type} (g : α → Bytes) : ∀ (xs : List α), (∀ x ∈ xs, g x ≠ []) → xs.length ≤ (xs.flatMap g).length
  | [], _ => Nat.le_refl _
  | x :: xs, h => by
    have := length_le_flatMap g xs (fun y hy => h y (by simp [hy]))
    have := List.length_pos_iff.2 (h x (by simp))
    simp only [List.length_cons, List.flatMap_cons, List.length_append]
    omega

/-- Records that can be rewritten, and are read whole from this file. -/
theorem opts_fit {m : Nat} {ids : Nat → Str} {xs : List (WarcRecord × Bytes)} (hw : ∀ x ∈ xs, x.1.Rewritable m x.2) : Fit (opts ids) (xs.map (·.1)) := by
  refine ⟨?_, fun _ _ => .inl rfl, rfl⟩
  intro w hm
  obtain ⟨x, hx, rfl⟩ := List.mem_map.1 hm
  exact (hw x hx).good

/-- C44: an uncompressed file of records is read and each record is written again, plain or
compressed.  The output holds the records in order, one by one, rewritten: the same version and
headers, up to the form of the length and up to digests that are added, and the same blocks; the
number of records is returned. -/
theorem C44_rewrite_partial {IsOut : Bytes → Bytes → Prop} (L : LawfulGzip IsMember) (D : LawfulDeflater IsOut) {f : Bytes → Bytes} (H : Hashlib.hash (lit "sha1") = some f) {c : BuilderCfg} (hf : c.filter = some)
    {m : Nat} {xs : List (WarcRecord × Bytes)} (hw : ∀ x ∈ xs, x.1.Rewritable m x.2) {g : FileObj} (hg : g.rest = xs.flatMap (·.1.bytes)) (hr : Reads g 16384 m) (ids : Nat → Str) :
    ∃ out, Copied IsOut f c.gzip xs out ∧ loadAndWrite c ids g = (.ok xs.length, ({} : OutFile).extended (out.flatMap (·.1))) := by
  have hfit := opts_fit (ids := ids) hw
  have hg' : g.rest = (xs.map (·.1)).flatMap WarcRecord.bytes ++ [] := by
    rw [hg, List.append_nil, List.flatMap_map]
  have hne : xs.map (·.1) ≠ [] → 2 ≤ g.rest.length ∧ ¬ [0x1f, 0x8b] <+: g.rest := by
    intro h
    rw [hg']
    exact ⟨two_le hfit.good h [], no_magic hfit.good h []⟩
  have h0 : xs.map (·.1) = [] → g.rest = [] := by
    intro h
    rw [hg', h]; rfl
  obtain ⟨it, k1, k2⟩ := plain_ready (tl := []) L hfit hg' (.inl rfl) (fun h => (hne (fun h' => h (h0 h'))).1)
    (by
      by_cases h : xs.map (·.1) = []
      · rw [h0 h]; simp
      · exact (hne h).2) hr (kf := none) (by simp)
  have hlen : xs.length ≤ g.rest.length := by
    rw [hg]
    refine length_le_flatMap _ _ (fun x hx => ?_)
    have := (hw x hx).good.two
    intro hc
    rw [hc] at this
    simp at this
  have hb := open_bound k1
  obtain ⟨out, o1, o2⟩ := copyLoop_ready D H hf (io := opts ids) rfl rfl xs _ (each_placed xs g.origin) hw (PyStream.bound it.reader + 2) it {} 0 k2 (by omega) rfl
  refine ⟨out, o1, ?_⟩
  unfold loadAndWrite
  rw [k1]
  dsimp only
  rw [o2, if_pos rfl, Nat.zero_add]

theorem Copied.normal {f : Bytes → Bytes} {gzip : Bool} : ∀ {xs : List (WarcRecord × Bytes)} {out : List (Bytes × WarcRecord)}, Copied IsMember f gzip xs out →
    (∀ x ∈ xs, x.1.Normal ∧ AtMostOne (lit "Content-Length") x.1.headers) → out.map (·.2) = xs.map (·.1) ∧ ∀ y ∈ out, Stored IsMember gzip y.1 y.2
  | _, _, .nil, _ => ⟨rfl, by simp⟩
  | x :: xs, _, .cons h1 h2, hn => by
    obtain ⟨k1, k2⟩ := Copied.normal h2 (fun y hy => hn y (by simp [hy]))
    have hx := hn x (by simp)
    refine ⟨by rw [List.map_cons, List.map_cons, k1, hx.1.same hx.2 h1.1], ?_⟩
    intro y hy
    rcases List.mem_cons.1 hy with rfl | hy
    · exact h1.2
    · exact k2 y hy

theorem stored_plain : ∀ {out : List (Bytes × WarcRecord)}, (∀ y ∈ out, Stored IsMember false y.1 y.2) → out.flatMap (·.1) = (out.map (·.2)).flatMap WarcRecord.bytes
  | [], _ => rfl
  | y :: out, h => by
    have := h y (by simp)
    rw [List.flatMap_cons, List.map_cons, List.flatMap_cons, stored_plain (fun y hy => h y (by simp [hy])), show y.1 = y.2.bytes from this]

/-- C44 for records in normal form, that is, in the form in which they are written: reading the file
and writing the records without compression gives the same file, byte by byte. -/
theorem C44_identity (L : LawfulGzip IsMember) (D : LawfulDeflater IsMember) {f : Bytes → Bytes} (H : Hashlib.hash (lit "sha1") = some f) {c : BuilderCfg} (hf : c.filter = some) (hc : c.gzip = false)
    {m : Nat} {xs : List (WarcRecord × Bytes)} (hw : ∀ x ∈ xs, x.1.Rewritable m x.2) (hn : ∀ x ∈ xs, x.1.Normal) {g : FileObj} (hg : g.rest = xs.flatMap (·.1.bytes)) (hr : Reads g 16384 m) (ids : Nat → Str) :
    loadAndWrite c ids g = (.ok xs.length, ({} : OutFile).extended g.rest) := by
  obtain ⟨out, o1, o2⟩ := C44_rewrite_partial L D H hf hw hg hr ids
  obtain ⟨o3, o4⟩ := o1.normal (fun x hx => ⟨hn x hx, (hw x hx).oneLength⟩)
  rw [hc] at o4
  rw [o2, stored_plain o4, o3, hg, List.flatMap_map]

/-- The same with compression: each member of the output holds the bytes of one record. -/
theorem C44_identity_gzip (L : LawfulGzip IsMember) (D : LawfulDeflater IsMember) {f : Bytes → Bytes} (H : Hashlib.hash (lit "sha1") = some f) {c : BuilderCfg} (hf : c.filter = some) (hc : c.gzip = true)
    {m : Nat} {xs : List (WarcRecord × Bytes)} (hw : ∀ x ∈ xs, x.1.Rewritable m x.2) (hn : ∀ x ∈ xs, x.1.Normal) {g : FileObj} (hg : g.rest = xs.flatMap (·.1.bytes)) (hr : Reads g 16384 m) (ids : Nat → Str) :
    ∃ zs : List Bytes, Each (fun x z => IsMember z x.1.bytes) xs zs ∧ loadAndWrite c ids g = (.ok xs.length, ({} : OutFile).extended zs.flatten) := by
  obtain ⟨out, o1, o2⟩ := C44_rewrite_partial L D H hf hw hg hr ids
  refine ⟨out.map (·.1), ?_, by rw [o2, List.flatMap]⟩
  rw [hc] at o1
  have key : ∀ {xs : List (WarcRecord × Bytes)} {out : List (Bytes × WarcRecord)}, Copied IsMember f true xs out → (∀ x ∈ xs, x.1.Rewritable m x.2) → (∀ x ∈ xs, x.1.Normal) →
      Each (fun x z => IsMember z x.1.bytes) xs (out.map (·.1)) := by
    intro xs out h
    induction h with
    | nil => intro _ _; exact .nil
    | cons h1 h2 ih =>
      intro hw hn
      refine .cons ?_ (ih (fun x hx => hw x (by simp [hx])) (fun x hx => hn x (by simp [hx])))
      have := h1.2
      rw [(hn _ (by simp)).same (hw _ (by simp)).oneLength h1.1] at this
      exact this
  exact key o1 hw hn

/-- C60 for uncompressed files: there are no errors, and the output has each record, rewritten, in
a gzip member of its own. -/
theorem C60_plain {IsOut : Bytes → Bytes → Prop} (L : LawfulGzip IsMember) (D : LawfulDeflater IsOut) {f : Bytes → Bytes} (H : Hashlib.hash (lit "sha1") = some f) {c : BuilderCfg} (hf : c.filter = some) (hc : c.gzip = true)
    {m : Nat} {xs : List (WarcRecord × Bytes)} (hw : ∀ x ∈ xs, x.1.Rewritable m x.2) {g : FileObj} (hg : g.rest = xs.flatMap (·.1.bytes)) (hr : Reads g 16384 m) (ids : Nat → Str) (again : List Nat) :
    ∃ out, Copied IsOut f true xs out ∧ recompress c ids g again = (.noErrors xs.length, ({} : OutFile).extended (out.flatMap (·.1))) := by
  obtain ⟨out, o1, o2⟩ := C44_rewrite_partial L D H hf hw hg hr ids
  rw [hc] at o1
  exact ⟨out, o1, by unfold recompress; rw [o2]⟩

/-- C44, for a file in which each record is a gzip member. -/
theorem C44_rewrite_gzip_partial {IsOut : Bytes → Bytes → Prop} (L : LawfulGzip IsMember) (D : LawfulDeflater IsOut) {f : Bytes → Bytes} (H : Hashlib.hash (lit "sha1") = some f) {c : BuilderCfg} (hf : c.filter = some)
    {m : Nat} {xs : List (WarcRecord × Bytes)} (hne : xs ≠ []) (hw : ∀ x ∈ xs, x.1.Rewritable m x.2) {zs : List Bytes} (hz : Each (fun x z => IsMember z x.1.bytes) xs zs)
    {g : FileObj} (hg : g.rest = zs.flatten) (hr : ReadsGz g 16384 m zs) (ids : Nat → Str) :
    ∃ out, Copied IsOut f c.gzip xs out ∧ loadAndWrite c ids g = (.ok xs.length, ({} : OutFile).extended (out.flatMap (·.1))) := by
  have key : ∀ {xs : List (WarcRecord × Bytes)} {zs : List Bytes}, Each (fun x z => IsMember z x.1.bytes) xs zs →
      ∃ ms : List (Bytes × WarcRecord), ms.map (·.1) = zs ∧ ms.map (·.2) = xs.map (·.1) ∧ ∀ y ∈ ms, IsMember y.1 y.2.bytes := by
    intro xs zs h
    induction h with
    | nil => exact ⟨[], rfl, rfl, by simp⟩
    | @cons x z xs zs h1 h2 ih =>
      obtain ⟨ms, k1, k2, k3⟩ := ih
      refine ⟨(z, x.1) :: ms, by simp [k1], by simp [k2], ?_⟩
      intro y hy
      rcases List.mem_cons.1 hy with rfl | hy
      · exact h1
      · exact k3 y hy
  obtain ⟨ms, m1, m2, m3⟩ := key hz
  have hl : ms.length = xs.length := by simpa using congrArg List.length m2
  have hfit : Fit (opts ids) (ms.map (·.2)) := by rw [m2]; exact opts_fit hw
  obtain ⟨it, k1, k2⟩ := gz_ready (tl := []) L hfit m3 (by rw [hg, ← m1, List.append_nil]; rfl) (by rintro rfl; exact hne (List.length_eq_zero_iff.1 hl.symm)) (by rw [m1]; exact hr) (kf := none) (by simp)
  have hlen : xs.length ≤ g.rest.length := by
    rw [hg, ← m1, ← hl]
    refine length_le_flatMap (fun y : Bytes × WarcRecord => y.1) ms (fun y hy => ?_)
    have := L.magic (m3 y hy)
    intro hc
    rw [hc] at this
    simp at this
  have hb := open_bound k1
  obtain ⟨out, o1, o2⟩ := copyLoop_ready D H hf (io := opts ids) rfl rfl xs _ (each_placedGz xs ms g.origin m2) hw (PyStream.bound it.reader + 2) it {} 0 k2 (by omega) rfl
  refine ⟨out, o1, ?_⟩
  unfold loadAndWrite
  rw [k1]
  dsimp only
  rw [o2, if_pos rfl, Nat.zero_add]

/-- C60 for files in which each record is a gzip member. -/
theorem C60_gzip {IsOut : Bytes → Bytes → Prop} (L : LawfulGzip IsMember) (D : LawfulDeflater IsOut) {f : Bytes → Bytes} (H : Hashlib.hash (lit "sha1") = some f) {c : BuilderCfg} (hf : c.filter = some) (hc : c.gzip = true)
    {m : Nat} {xs : List (WarcRecord × Bytes)} (hne : xs ≠ []) (hw : ∀ x ∈ xs, x.1.Rewritable m x.2) {zs : List Bytes} (hz : Each (fun x z => IsMember z x.1.bytes) xs zs)
    {g : FileObj} (hg : g.rest = zs.flatten) (hr : ReadsGz g 16384 m zs) (ids : Nat → Str) (again : List Nat) :
    ∃ out, Copied IsOut f true xs out ∧ recompress c ids g again = (.noErrors xs.length, ({} : OutFile).extended (out.flatMap (·.1))) := by
  obtain ⟨out, o1, o2⟩ := C44_rewrite_gzip_partial L D H hf hne hw hz hg hr ids
  rw [hc] at o1
  exact ⟨out, o1, by unfold recompress; rw [o2]⟩

theorem readBlocks_exact {W : Nat → BufReader FileObj → Bytes → Prop} (hW : BufReader.WeakFill W) {n : Nat} (hn : 0 < n) :
    ∀ (fuel : Nat) {r : BufReader FileObj} {rem : Bytes}, W 0 r rem → rem.length < fuel → ∃ bufs r', readBlocks (n : Int) fuel r = (bufs, .ok (), r') ∧ bufs.flatten = rem
  | 0, _, _, _, h => by omega
  | fuel + 1, r, rem, h, hf => by
    obtain ⟨r1, j, k1, h1, h2, h3, h4, h5, h6⟩ := BufReader.read_weak hW h n
    obtain rfl : k1 = 0 := by omega
    have h6' : j < n → rem.drop j = [] := fun h => (h6 h).resolve_right (by omega)
    have h1' : PyStream.read r (some (n : Int)) = (.ok (rem.take j), r1) := h1
    unfold readBlocks
    rw [h1']
    dsimp only
    split
    · rename_i he
      have he : rem.take j = [] := by simpa using he
      have h0 : rem = [] := by
        rcases List.take_eq_nil_iff.1 he with h | h
        · have := h6' (by omega)
          rwa [h] at this
        · exact h
      subst h0
      exact ⟨[], r1, rfl, rfl⟩
    · rename_i he
      have hj : 0 < j := by
        rcases Nat.eq_zero_or_pos j with h | h
        · subst h; simp at he
        · exact h
      obtain ⟨bufs, r', m1, m2⟩ := readBlocks_exact hW hn fuel h2 (by rw [List.length_drop]; omega)
      rw [m1]
      exact ⟨rem.take j :: bufs, r', rfl, by rw [List.flatten_cons, m2, List.take_append_drop]⟩

/-- C60 for files that are one gzip member with several records: the first attempt fails, the second
one finds all records.  In part: for files with several members of which some have several records,
this is false (`C60_lost`). -/
theorem C60_one_member_partial {IsOut : Bytes → Bytes → Prop} (L : LawfulGzip IsMember) (D : LawfulDeflater IsOut) {f : Bytes → Bytes} (H : Hashlib.hash (lit "sha1") = some f) {c : BuilderCfg} (hf : c.filter = some) (hc : c.gzip = true)
    {m : Nat} {xs : List (WarcRecord × Bytes)} (h2 : 2 ≤ xs.length) (hw : ∀ x ∈ xs, x.1.Rewritable m x.2) (hm : m ≤ 16384) {g : FileObj} (hp : g.pos = 0) (hs : g.seekable = true)
    (hz : IsMember g.rest (xs.flatMap (·.1.bytes))) (hr : ReadsGz g 16384 m [g.rest]) (ids : Nat → Str) (again : List Nat) :
    ∃ out, Copied IsOut f true xs out ∧ recompress c ids g again = (.fixed xs.length, ({} : OutFile).extended (out.flatMap (·.1))) := by
  match xs, h2 with
  | x :: y :: xs, _ =>
    have hfit := opts_fit (ids := ids) hw
    obtain ⟨it, k1, k2⟩ := multi_ready (w := x.1) (w' := y.1) (ws := xs.map (·.1)) L hfit
      (by
        have : (x :: y :: xs).flatMap (·.1.bytes) = (x.1 :: y.1 :: xs.map (·.1)).flatMap WarcRecord.bytes := by
          simp only [List.flatMap_cons, List.flatMap_map]
        rw [← this]; exact hz) hr (kf := none) (by simp)
    have hb := open_bound k1
    have hpos : 1 ≤ g.rest.length := by
      have := (L.magic hz).length_le
      simp only [List.length_cons] at this
      omega
    obtain ⟨out, o1, o2⟩ := copyLoop_ready D H hf (io := opts ids) rfl rfl [x] _ (.cons rfl .nil) (fun z hz => by rw [List.mem_singleton.1 hz]; exact hw x (by simp))
      (PyStream.bound it.reader + 2) it {} 0 k2 (by simp only [List.length_cons, List.length_nil]; omega) rfl
    rw [if_neg (by decide)] at o2
    have e1 : loadAndWrite c ids g = (.error .nonChunkedGzip, ({} : OutFile).extended (out.flatMap (·.1))) := by
      unfold loadAndWrite
      rw [k1]
      exact o2
    obtain ⟨r, r1, r2⟩ := allNew L (g.rest, (x :: y :: xs).flatMap (·.1.bytes)) [] (fun z hz' => by rw [List.mem_singleton.1 hz']; exact hz)
      { g with caps := again } (by simp [FileObj.rest]) 16384 (by omega)
    have e2 : ∃ r0, BufReader.new g 16384 (some .gzip) true = .ok r0 ∧ r = { r0 with stream := { g with caps := again } } := by
      simp only [BufReader.new, L.codec_eq] at r1 ⊢
      cases r1
      exact ⟨_, rfl, rfl⟩
    obtain ⟨r0, e2, e3⟩ := e2
    have hseek : g.seek 0 = .ok g := by
      unfold FileObj.seek
      rw [if_pos hs, ← hp]
    obtain ⟨bufs, r', b1, b2⟩ := readBlocks_exact (BufReader.gzAll_weakFill L FileObj.shortRead) (n := 65536) (by omega) (r.bound + 2) r2
      (by have := (BufReader.gzAll_weakFill L FileObj.shortRead).bound r2; omega)
    have b2 : bufs.flatten = (x :: y :: xs).flatMap (·.1.bytes) := by simpa using b2
    obtain ⟨out', o3, o4⟩ := C44_rewrite_partial L D H hf hw (g := { content := bufs.flatten }) (by rw [← b2]; simp [FileObj.rest])
      ⟨by omega, by simp, by
        rcases hr.lines with h | h
        · exact .inl h
        · exact .inr ⟨rfl, hm⟩⟩ ids
    rw [hc] at o3
    refine ⟨out', o3, ?_⟩
    unfold recompress
    rw [e1]
    dsimp only
    unfold decompressAndRecompress
    rw [e2]
    dsimp only
    rw [hseek]
    dsimp only
    rw [← e3]
    have b1' : readAllBlocks 65536 r = (bufs, .ok (), r') := b1
    rw [b1']
    dsimp only
    rw [o4]

/-! ## What the rewritten records are like -/

/-- C44, the digests: a record that has a digest keeps it, over the same block, so the verdict about it
is the same as before; a digest that is added verifies. -/
theorem C44_verifies {f : Bytes → Bytes} (H : Hashlib.hash (lit "sha1") = some f) {w w' : WarcRecord} {payload : Bytes} (h : w.Rewritten f payload w') :
    (w.Has (lit "WARC-Block-Digest") → w'.block = w.block ∧ w'.value (lit "WARC-Block-Digest") = w.value (lit "WARC-Block-Digest")) ∧
    (w.value (lit "WARC-Block-Digest") = none → Outcome w'.block (w'.value (lit "WARC-Block-Digest")) (some true)) ∧
    (w.Has (lit "WARC-Payload-Digest") → w'.value (lit "WARC-Payload-Digest") = w.value (lit "WARC-Payload-Digest")) ∧
    (w.value (lit "WARC-Payload-Digest") = none → w.value (lit "WARC-Type") ≠ some (lit "warcinfo") → w.value (lit "WARC-Type") ≠ some (lit "revisit") →
      Outcome payload (w'.value (lit "WARC-Payload-Digest")) (some true)) := by
  obtain ⟨b1, b2⟩ := NewHeaders.blockDigest h.headers
  obtain ⟨p1, p2, -⟩ := NewHeaders.payloadDigest h.headers
  refine ⟨fun c => ⟨h.block, b1 c⟩, fun c => ?_, p1, fun c t1 t2 => ?_⟩
  · show Outcome _ (firstValue _ w'.headers) _
    rw [b2 c, h.block]; exact C41_verifies H _
  · show Outcome _ (firstValue _ w'.headers) _
    rw [p2 c t1 t2]; exact C41_verifies H _

theorem version_of_good {w : WarcRecord} (h : w.Good) : ∃ p s, VersionLine w.head p s := by
  have := (h.head []).version
  rw [List.append_nil] at this
  obtain ⟨v, h1, h2⟩ := this
  exact ⟨v, _, h1, h2, rfl⟩

/-- The records of the output, with their payloads. -/
def again (xs : List (WarcRecord × Bytes)) (out : List (Bytes × WarcRecord)) : List (WarcRecord × Bytes) := (out.map (·.2)).zip (xs.map (·.2))

theorem Copied.again {f : Bytes → Bytes} {gzip : Bool} {m : Nat} : ∀ {xs : List (WarcRecord × Bytes)} {out : List (Bytes × WarcRecord)}, Copied IsMember f gzip xs out →
    (∀ x ∈ xs, x.1.Rewritable m x.2) → (∀ x ∈ xs, x.1.value (lit "WARC-Block-Digest") ≠ some [] ∧ x.1.value (lit "WARC-Payload-Digest") ≠ some []) →
    (∀ y ∈ Props.again xs out, y.1.Rewritable m y.2 ∧ y.1.Normal) ∧ (Props.again xs out).map (·.1) = out.map (·.2) ∧ (Props.again xs out).length = xs.length
  | _, _, .nil, _, _ => ⟨by simp [Props.again], rfl, rfl⟩
  | x :: xs, y :: ys, .cons h1 h2, hw, hd => by
    obtain ⟨k1, k2, k3⟩ := Copied.again h2 (fun z hz => hw z (by simp [hz])) (fun z hz => hd z (by simp [hz]))
    have e : Props.again (x :: xs) (y :: ys) = (y.2, x.2) :: Props.again xs ys := rfl
    rw [e]
    refine ⟨?_, by rw [List.map_cons, k2]; rfl, by rw [List.length_cons, k3]; rfl⟩
    intro z hz
    rcases List.mem_cons.1 hz with rfl | hz
    · have hx := hw x (by simp)
      have := Rewritten.normal hx h1.1 (version_of_good hx.good) (hd x (by simp)).1 (hd x (by simp)).2
      exact ⟨this.2, this.1⟩
    · exact k1 z hz

/-- C44: rewriting is idempotent.  What comes out of rewriting a file of records without compression
is not changed by rewriting it again.  (A digest header with an empty value is not taken for one, so
that a digest is added each time: `C49_empty_digest`.) -/
theorem C44_twice (L : LawfulGzip IsMember) (D : LawfulDeflater IsMember) {f : Bytes → Bytes} (H : Hashlib.hash (lit "sha1") = some f) {c : BuilderCfg} (hf : c.filter = some) (hc : c.gzip = false)
    {m : Nat} {xs : List (WarcRecord × Bytes)} (hw : ∀ x ∈ xs, x.1.Rewritable m x.2)
    (hd : ∀ x ∈ xs, x.1.value (lit "WARC-Block-Digest") ≠ some [] ∧ x.1.value (lit "WARC-Payload-Digest") ≠ some [])
    {g : FileObj} (hg : g.rest = xs.flatMap (·.1.bytes)) (hr : Reads g 16384 m) (ids ids' : Nat → Str) {o : OutFile} {n : Nat} (ho : loadAndWrite c ids g = (.ok n, o))
    {g' : FileObj} (hg' : ({} : OutFile).extended g'.rest = o) (hr' : Reads g' 16384 m) : loadAndWrite c ids' g' = (.ok n, o) := by
  obtain ⟨out, o1, o2⟩ := C44_rewrite_partial L D H hf hw hg hr ids
  rw [ho] at o2
  rw [hc] at o1
  obtain ⟨k1, k2, k3⟩ := o1.again hw hd
  have e1 : n = xs.length := by
    have := congrArg Prod.fst o2
    simpa using this
  have e2 : o = ({} : OutFile).extended (out.flatMap (·.1)) := congrArg Prod.snd o2
  have hout : ∀ y ∈ out, Stored IsMember false y.1 y.2 := by
    clear k1 k2 k3 ho o2 e1 e2 hr hg hd hw
    unfold Copied at o1
    induction o1 with
    | nil => simp
    | cons h1 h2 ih =>
      intro y hy
      rcases List.mem_cons.1 hy with rfl | hy
      · exact h1.2
      · exact ih y hy
  have e3 : g'.rest = out.flatMap (·.1) := by
    have := hg'.trans e2
    simpa [OutFile.extended] using congrArg OutFile.content this
  have e4 : g'.rest = (Props.again xs out).flatMap (·.1.bytes) := by
    rw [e3, stored_plain hout, ← k2, List.flatMap_map]
  have := C44_identity L D H hf hc (fun x hx => (k1 x hx).1) (fun x hx => (k1 x hx).2) e4 hr' ids'
  rw [this, hg', k3, e1]

end
end Warcio.Props

namespace Warcio.Props
open Warcio ArchiveIter Recompressor
section
open Toy

/-! ## The hypotheses are met -/

theorem noBrackets {u : Str} (h : u.head? ≠ some '<') (m : Str) : u ≠ '<' :: m ++ ['>'] := by
  intro hm
  rw [hm] at h
  simp at h

/-- The response can be rewritten; its lines have at most 17 bytes. -/
theorem exHttp_rewritable : exHttp.Rewritable 17 (utf8Encode (lit "xy")) where
  good := exHttp_good
  headers := by
    intro h hh
    simp only [exHttp, List.mem_cons, List.not_mem_nil, or_false] at hh
    rcases hh with rfl | rfl | rfl
    all_goals exact ⟨⟨by decide, by decide, by decide, by decide, by decide⟩, by decide, by decide⟩
  oneLength := by show _ ≤ 1; decide
  oneType := by show _ ≤ 1; decide
  tidy := by
    intro u hu
    have : exHttp.value (lit "WARC-Target-URI") = some (lit "http://x/") := by decide
    rw [this] at hu
    cases hu
    exact ⟨by decide, noBrackets (by decide)⟩
  splits := by
    have good : GoodHeader (lit "A", lit "b") := ⟨⟨by decide, by decide, by decide, by decide, by decide⟩, by decide, by decide⟩
    have reg : RegularHttp ({ protocol := lit "HTTP/1.1", statusline := lit "200 OK", headers := [(lit "A", lit "b")] } : StatusAndHeaders) := by
      refine ⟨⟨by decide, by decide, by decide, by decide⟩, ⟨by decide, by decide⟩, ?_, .inl (by decide)⟩
      intro x hx
      rw [List.mem_singleton.1 hx]
      exact good
    have hs := SplitsOf.http (http := exHttp.Http) (block := exHttp.block) (m := 17) _ (utf8Encode (lit "xy")) exHttp_http reg (by decide +kernel) (by decide +kernel)
      (.line (by decide +kernel) (by decide +kernel) (.line (by decide +kernel) (by decide +kernel) (.blank (by decide +kernel) (by decide +kernel) (by decide +kernel))))
    exact ⟨_, hs⟩
  revisit := fun h => absurd h (by decide)

theorem exInfo_rewritable (m : Nat) : exInfo.Rewritable m exInfo.block where
  good := exInfo_good
  headers := by
    intro h hh
    simp only [exInfo, List.mem_cons, List.not_mem_nil, or_false] at hh
    rcases hh with rfl | rfl
    all_goals exact ⟨⟨by decide, by decide, by decide, by decide, by decide⟩, by decide, by decide⟩
  oneLength := by show _ ≤ 1; decide
  oneType := by show _ ≤ 1; decide
  tidy := by
    intro u hu
    have : exInfo.value (lit "WARC-Target-URI") = none := by decide
    rw [this] at hu; cases hu
  splits := by
    refine ⟨[], .whole (.inl ?_)⟩
    rintro ⟨u, v, h, _⟩
    have : exInfo.value (lit "WARC-Target-URI") = none := by decide
    rw [this] at h; cases h
  revisit := fun h => absurd h (by decide)

/-- Both, with their payloads. -/
def exRecords : List (WarcRecord × Bytes) := [(exHttp, utf8Encode (lit "xy")), (exInfo, exInfo.block)]

theorem exRecords_rewritable : ∀ x ∈ exRecords, x.1.Rewritable 17 x.2 := by
  intro x hx
  simp only [exRecords, List.mem_cons, List.not_mem_nil, or_false] at hx
  rcases hx with rfl | rfl
  · exact exHttp_rewritable
  · exact exInfo_rewritable 17

/-- The hypotheses of `C44_rewrite_partial`, `C44_twice`, `C60_plain`, of `C44_rewrite_gzip_partial` and `C60_gzip`, and of `C60_one_member_partial`. -/
example : (∀ x ∈ exRecords, x.1.Rewritable 17 x.2) ∧ (∀ x ∈ exRecords, x.1.value (lit "WARC-Block-Digest") ≠ some [] ∧ x.1.value (lit "WARC-Payload-Digest") ≠ some []) ∧
    exFile.rest = exRecords.flatMap (·.1.bytes) ∧ Reads exFile 16384 17 ∧
    exGz.rest = [compress exHttp.bytes, compress exInfo.bytes].flatten ∧ Each (fun x z => IsMember z x.1.bytes) exRecords [compress exHttp.bytes, compress exInfo.bytes] ∧
    ReadsGz exGz 16384 17 [compress exHttp.bytes, compress exInfo.bytes] ∧
    IsMember exOne.rest (exRecords.flatMap (·.1.bytes)) ∧ ReadsGz exOne 16384 17 [exOne.rest] ∧ LawfulDeflater IsMember := by
  refine ⟨exRecords_rewritable, ?_, rfl, ⟨by decide, by simp [exFile], .inr ⟨rfl, by decide⟩⟩, rfl, .cons rfl (.cons rfl .nil), (.fit (by decide) rfl (by decide +kernel)), rfl,
    (.fit (by decide) rfl (by decide +kernel)), lawfulDeflater⟩
  intro x hx
  simp only [exRecords, List.mem_cons, List.not_mem_nil, or_false] at hx
  rcases hx with rfl | rfl
  · exact ⟨by decide, by decide⟩
  · exact ⟨by decide, by decide⟩

/-- What `C44_rewrite_partial` says of these records, with the toy digest. -/
example : loadAndWrite { gzip := false } (fun _ => []) exFile = (.ok 2, ({} : OutFile).extended (utf8Encode (lit
    "WARC/1.0\r\nWARC-Type: response\r\nWARC-Target-URI: http://x/\r\nContent-Length: 27\r\nWARC-Payload-Digest: sha1:ALY7D4PR6HY7D4PR6HY7D4PR6HY7D4PR\r\nWARC-Block-Digest: sha1:DOPJ5HU6T2PJ5HU6T2PJ5HU6T2PJ5HU6\r\n\r\nHTTP/1.1 200 OK\r\nA: b\r\n\r\nxy\r\n\r\nWARC/1.1\r\nWARC-Type: metadata\r\nContent-Length: 18\r\nWARC-Payload-Digest: sha1:CJPF4XS6LZPF4XS6LZPF4XS6LZPF4XS6\r\nWARC-Block-Digest: sha1:CJPF4XS6LZPF4XS6LZPF4XS6LZPF4XS6\r\n\r\n\r\n\r\nWARC/1.0\r\n\r\n\r\n\r\n\r\n"))) := by
  decide +kernel

/-- What is read and written is in normal form (`C44_identity`): `C44_twice` needs such records. -/
example {c : BuilderCfg} (hf : c.filter = some) (hc : c.gzip = false) :
    ∃ w : WarcRecord, exHttp.Rewritten sha1 (utf8Encode (lit "xy")) w ∧ w.Normal ∧ w.Rewritable 17 (utf8Encode (lit "xy")) := by
  obtain ⟨out, o1, -⟩ := C44_rewrite_partial (c := c) (xs := [(exHttp, utf8Encode (lit "xy"))]) lawful lawfulDeflater sha1_eq hf (m := 17)
    (fun x hx => by rw [List.mem_singleton.1 hx]; exact exHttp_rewritable) (g := { content := exHttp.bytes }) (by simp [FileObj.rest])
    ⟨by decide, by simp, .inr ⟨rfl, by decide⟩⟩ (fun _ => [])
  cases o1 with
  | cons h1 h2 =>
    have := Rewritten.normal exHttp_rewritable h1.1 (version_of_good exHttp_good) (by decide) (by decide)
    exact ⟨_, h1.1, this.1, this.2⟩

/-! ## The claims that fail -/

/-- C44 fails for a response whose block starts with a blank line: the blank line is not written
again, but is counted in the length, so that the record takes two bytes from what follows it. -/
theorem C44_blank_line :
    loadAndWrite { gzip := false } (fun _ => []) { content := utf8Encode (lit
      "WARC/1.0\r\nWARC-Type: response\r\nWARC-Target-URI: http://x/\r\nWARC-Block-Digest: a:b\r\nWARC-Payload-Digest: a:b\r\nContent-Length: 4\r\n\r\n\r\nxy\r\n\r\n") } =
    (.ok 1, ({} : OutFile).extended (utf8Encode (lit
      "WARC/1.0\r\nWARC-Type: response\r\nWARC-Target-URI: http://x/\r\nWARC-Block-Digest: a:b\r\nWARC-Payload-Digest: a:b\r\nContent-Length: 4\r\n\r\nxy\r\n\r\n"))) := by
  decide +kernel

/-- C44 fails for a response whose HTTP headers are not in the form in which they are written: a
space is added, so the block changes, but the digest of the block stays. -/
theorem C44_stale_digest :
    loadAndWrite { gzip := false } (fun _ => []) { content := utf8Encode (lit
      "WARC/1.0\r\nWARC-Type: response\r\nWARC-Target-URI: http://x/\r\nWARC-Block-Digest: a:b\r\nWARC-Payload-Digest: a:b\r\nContent-Length: 26\r\n\r\nHTTP/1.1 200 OK\r\nA:b\r\n\r\nxy\r\n\r\n") } =
    (.ok 1, ({} : OutFile).extended (utf8Encode (lit
      "WARC/1.0\r\nWARC-Type: response\r\nWARC-Target-URI: http://x/\r\nWARC-Block-Digest: a:b\r\nWARC-Payload-Digest: a:b\r\nContent-Length: 27\r\n\r\nHTTP/1.1 200 OK\r\nA: b\r\n\r\nxy\r\n\r\n"))) := by
  decide +kernel

/-- A record with a number in its ID. -/
def exNumbered (i : String) : Bytes :=
  utf8Encode (lit ("WARC/1.0\r\nWARC-Record-ID: <" ++ i ++ ">\r\nContent-Length: 1\r\n\r\nx\r\n\r\n"))

/-- C60 fails: of a file of four records, three in one member, and the fourth behind two members that
are empty, `recompress` reports three records fixed; the fourth is lost. -/
theorem C60_lost : (recompress { gzip := true } (fun _ => []) { content :=
      (compress (exNumbered "1" ++ exNumbered "2" ++ exNumbered "3") ++ compress [] ++ compress [] ++ compress (exNumbered "4")) } []).1 = .fixed 3 := by
  decide +kernel

/-- C60 fails: of a file of four records, the first member of which is empty, and the second one holds
three records, `recompress` finds no errors and writes two records. -/
theorem C60_lost_silently : (recompress { gzip := true } (fun _ => []) { content :=
      (compress [] ++ compress (exNumbered "1" ++ exNumbered "2" ++ exNumbered "3") ++ compress (exNumbered "4")) } []).1 = .noErrors 2 := by
  decide +kernel

/-- Without empty members nothing is lost here. -/
example : (recompress { gzip := true } (fun _ => []) { content :=
      (compress (exNumbered "1" ++ exNumbered "2" ++ exNumbered "3") ++ compress (exNumbered "4")) } []).1 = .fixed 4 := by
  decide +kernel

end
end Warcio.Props
