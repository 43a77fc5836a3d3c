import Verif.Proofs.Parts
import Verif.Props.Stray
import Verif.Props.Recheck

/-!
# Properties C87 and C88: any uncompressed file

C87: what iterating over a file does to its bytes, whatever they are.  C88: opening the file at a
reported offset.  Specification: `Parts`, `Tiled` in `Verif/Spec/Parts.lean`.
-/

set_option linter.unusedSectionVars false

namespace Warcio.Props

open Warcio ArchiveIter BufReader Loader

section
variable [Zlib] [Hashlib] [PyUni] {IsMember : Bytes → Bytes → Prop}

/-- A file that is not taken for a compressed one: its first bytes are not those of gzip, and the
first read gives at least two bytes. -/
structure Uncompressed (f : FileObj) (bs : Nat) : Prop where
  block : 2 ≤ bs
  first : ∀ c, f.caps.head? = some c → 2 ≤ c
  two : f.rest ≠ [] → 2 ≤ f.rest.length
  magic : ¬ [0x1f, 0x8b] <+: f.rest

/-- Lines of up to `m` bytes are read whole if blocks have at least `m` bytes and there are no short
reads. -/
def Lined (f : FileObj) (bs m : Nat) : Prop := m = 0 ∨ (f.caps = [] ∧ m ≤ bs)

/-- C87: iterating over any uncompressed file, with any options.  The first record is at the
beginning.  Each record is a header block, which is what the loader makes of the bytes there and of
nothing before them, and as many bytes as it declares or as there are.  Behind it one line and
the blank lines after it are skipped, with a warning if the line is not blank, and the next record
starts there: nothing else is skipped, and nothing is read twice.  The offset and length
reported are those of the record in the file.  The iteration ends at the end of the file, with the exception of
the loader, or with a digest that fails. -/
theorem C87_parts (L : LawfulGzip IsMember) {f : FileObj} {bs : Nat} (h : Uncompressed f bs) {m : Nat} (hl : Lined f bs m) (io : IterOpts) (kf : Option Format) :
    ∃ it, openArchive f io bs kf = .ok it ∧ ∀ plan, PlanOk plan → Parts io m 0 kf f.origin [] f.rest plan (iterate it plan) := by
  obtain ⟨V, it, hV, hX, k1, k2, k3⟩ := open_any L hl h.block h.first h.two h.magic io kf
  exact ⟨it, k1, fun plan hp => any_parts L hV hX plan (next_start k2) k3 hp⟩

/-- C87: the HTTP headers of a record of the cut above, and what is left in its stream: those
at the front of the block, whatever file it is in. -/
theorem C87_http {o : LoadOpts} (hn : o.noRecordParse = false) (hv : o.verifyHttp = false) {m : Nat} {p : Portion} {rec : Record Unit} {left : Bytes}
    (hc : o.checkDigests = none ∨ (o.checkDigests ≠ some .raise ∧ rec.Usable)) (hs : p.Shows o rec) (hp : p.Parsed o m rec left)
    (hr : ∀ f h, Loader.detectType o p.all none = (.ok (f, h), p.block ++ p.tail) → HttpRecord (Loader.fields f h).recType (Loader.fields f h).uri) (h0 : rec.length ≠ some 0)
    (hw : HeadWithin m p.block) (hl : lineText (takeLine p.block) ≠ []) :
    ∃ hd, HttpHead p.block hd left ∧ (hd.statusline ≠ [] ∨ hd.headers ≠ [] → rec.httpHeaders = some hd) := by
  obtain ⟨⟨f, h, d1, -⟩, -⟩ := hs
  obtain ⟨http, x1, x2, -⟩ := hp hc hw f h d1
  rw [hn, hv, if_neg (by simp)] at x1
  obtain ⟨hd, left', k1, -, k2⟩ := http_bytes (hr f h d1) h0 hl
  rw [k2] at x1
  simp only [Prod.mk.injEq, Except.ok.injEq] at x1
  obtain ⟨rfl, rfl⟩ := x1
  refine ⟨hd, k1, fun hne => ?_⟩
  have ht : truthyHeaders (some hd) = true := by
    simp only [truthyHeaders, StatusAndHeaders.truthy]
    rcases hne with h | h <;> simp [h]
  rw [x2, ht]
  rfl

/-- C87: with `verify_http` the block of a record that is yielded starts with the first line of a
request or of a response, and the headers are those of the block; other records end the
iteration (`Over`). -/
theorem C87_verify {o : LoadOpts} (hn : o.noRecordParse = false) (hv : o.verifyHttp = true) {m : Nat} {p : Portion} {rec : Record Unit} {left : Bytes}
    (hc : o.checkDigests = none ∨ (o.checkDigests ≠ some .raise ∧ rec.Usable)) (hs : p.Shows o rec) (hp : p.Parsed o m rec left)
    (hr : ∀ f h, Loader.detectType o p.all none = (.ok (f, h), p.block ++ p.tail) → HttpRecord (Loader.fields f h).recType (Loader.fields f h).uri) (h0 : rec.length ≠ some 0)
    (hw : HeadWithin m p.block) (hl : lineText (takeLine p.block) ≠ []) :
    ∃ hd, HttpVerified rec.recType p.block hd left ∧ (hd.statusline ≠ [] ∨ hd.headers ≠ [] → rec.httpHeaders = some hd) := by
  obtain ⟨⟨f, h, d1, -, d2, -⟩, -⟩ := hs
  obtain ⟨http, x1, x2, -⟩ := hp hc hw f h d1
  rw [hn, hv, if_neg (by simp)] at x1
  rw [d2]
  rcases http_verified (hr f h d1) h0 hl with ⟨hd, left', k1, k2⟩ | ⟨-, left', k2⟩
  · rw [k2] at x1
    simp only [Prod.mk.injEq, Except.ok.injEq] at x1
    obtain ⟨rfl, rfl⟩ := x1
    refine ⟨hd, k1, fun hne => ?_⟩
    have ht : truthyHeaders (some hd) = true := by
      simp only [truthyHeaders, StatusAndHeaders.truthy]
      rcases hne with h | h <;> simp [h]
    rw [x2, ht]
    rfl
  · rw [k2] at x1
    cases x1

/-- Without digest checks, `offset` and `size` answer. -/
theorem places {io : IterOpts} (hc : io.checkDigests = none) {p : Portion} {off : Int} {ws : List (Int × Bytes)} {left : Bytes} {vs : List (Except PyErr UserVal)}
    (h : p.Answers io off ws left [.offset, .size] vs) : vs = [.ok (.int off), .ok (.int (len p.bytes))] := by
  cases h with
  | cons _ _ v left' _ vs h1 h2 =>
    cases h2 with
    | cons _ _ w left2 _ vs h3 h4 =>
      cases h4
      rcases h1 with ⟨h1, _⟩ | ⟨rfl, _⟩
      · rw [hc] at h1; cases h1
      · rcases h3 with ⟨h3, _⟩ | ⟨rfl, _⟩
        · rw [hc] at h3; cases h3
        · rfl

theorem parts_tiled {io : IterOpts} (hc : io.checkDigests = none) {n : Nat} {kf : Option Format} {off : Int} {ws : List (Int × Bytes)} {data : Bytes} {plan : List (List UserOp)} {steps : List Step}
    (h : Parts io m n kf off ws data plan steps) (hp : ∀ ops ∈ plan, ops = [.offset, .size]) : Tiled off data (steps.filterMap Step.place) := by
  have stop : ∀ (plan : List (List UserOp)) (e : PyErr), ((.error e : Step) :: plan.map (fun _ => .error .stopIteration)).filterMap Step.place = [] := by
    intro plan e
    simp [Step.place]
  induction h with
  | enough => exact .nil _ _
  | record n kf off ws p ops plan rec left vs steps h1 h1' h2 h3 h4 h5 ih =>
    have := hp ops (by simp)
    subst this
    rw [places hc h4]
    have e : Step.place (.ok (some rec, [.ok (.int off), .ok (.int (len p.bytes))])) = some (off, len p.bytes) := rfl
    simp only [List.filterMap_cons, e]
    have hne : p.bytes ≠ [] := by
      intro h0; exact h1.some (List.append_eq_nil_iff.1 h0).1
    exact .cons _ _ _ _ hne (ih (fun ops h => hp ops (by simp [h])))
  | broken _ _ _ _ _ _ plan e h => rw [hc] at h; cases h
  | over _ _ _ _ _ _ plan e _ => rw [stop]; exact .nil _ _

/-- C87: the offsets and lengths reported, as pieces of the file. -/
theorem C87_tiles (L : LawfulGzip IsMember) {f : FileObj} {bs : Nat} (h : Uncompressed f bs) {io : IterOpts} (hc : io.checkDigests = none) (kf : Option Format) :
    ∃ it, openArchive f io bs kf = .ok it ∧ ∀ k, Tiled f.origin f.rest ((iterate it (List.replicate k [.offset, .size])).filterMap Step.place) := by
  obtain ⟨it, k1, k2⟩ := C87_parts L h (m := 0) (.inl rfl) io kf
  refine ⟨it, k1, fun k => ?_⟩
  have hr : ∀ ops ∈ List.replicate k [UserOp.offset, .size], ops = [.offset, .size] := fun ops h => (List.mem_replicate.1 h).2
  refine parts_tiled hc (k2 _ ?_) hr
  intro ops h o ho
  rw [hr ops h] at ho
  simp only [List.mem_cons, List.not_mem_nil, or_false] at ho
  rcases ho with rfl | rfl <;> trivial

/-! ## Opening the file at a reported offset -/

/-- Read the record, and ask for its position and size. -/
def wholeOps : List UserOp := [.call (.read none), .offset, .size]

theorem whole_answers {io : IterOpts} (hc : io.checkDigests = none) {p : Portion} {off : Int} {ws : List (Int × Bytes)} {left : Bytes} {vs : List (Except PyErr UserVal)}
    (h : p.Answers io off ws left wholeOps vs) : vs = [.ok (.bytes left), .ok (.int off), .ok (.int (len p.bytes))] := by
  have hd : ¬ io.checkDigests.isSome = true := by rw [hc]; simp
  unfold wholeOps at h
  cases h with
  | cons _ _ v left' _ vs h1 h2 =>
    cases h2 with
    | cons _ _ w left2 _ vs h3 h4 =>
      cases h4 with
      | cons _ _ x left3 _ vs h5 h6 =>
        cases h6
        have h1 := h1.resolve_left (fun h => hd h.1)
        have h3 := h3.resolve_left (fun h => hd h.1)
        have h5 := h5.resolve_left (fun h => hd h.1)
        obtain ⟨q, rfl, _, _, h1⟩ := h1
        obtain ⟨rfl, _⟩ := h3
        obtain ⟨rfl, _⟩ := h5
        have := h1 none rfl
        rw [this]
        simp [Call.expect]

theorem arcLines_plain {o o' : LoadOpts} (h : o.arc2warc = false) (h' : o'.arc2warc = false) (full : Str) (ls : List Bytes) : arcLines o full ls = arcLines o' full ls := by
  unfold arcLines arcHeaders
  rw [h, h']
  rfl

/-- Once the format is known, detection gives the same. -/
theorem detect_known {o o' : LoadOpts} (h : o.arc2warc = false) (h' : o'.arc2warc = false) {full : Str} {ls ls' : List Bytes} {f : HeadFormat} {hd : StatusAndHeaders}
    (hx : detectLines o full ls = (.ok (f, hd), ls')) (hk : o'.knownFormat = some (fields f hd).format ∨ (o'.knownFormat = none ∧ (fields f hd).format = .warc)) :
    detectLines o' full ls = (.ok (f, hd), ls') := by
  have arc : ∀ {ls : List Bytes}, detectArcLines o full ls = (.ok (f, hd), ls') → detectLines o' full ls = (.ok (f, hd), ls') := by
    intro ls hx
    have hx2 : detectArcLines o' full ls = (.ok (f, hd), ls') ∧ f = .arc := by
      unfold detectArcLines at hx ⊢
      rw [arcLines_plain h' h]
      generalize arcLines o full ls = y at hx ⊢
      obtain ⟨y, l2⟩ := y
      cases y with
      | ok v =>
        rw [h] at hx
        rw [h']
        cases hx
        exact ⟨rfl, rfl⟩
      | error e => cases e <;> cases hx
    obtain ⟨hx2, rfl⟩ := hx2
    have hf : (fields .arc hd).format = .arc := rfl
    rw [hf] at hk
    have hk : o'.knownFormat = some .arc := hk.resolve_right (fun h => by cases h.2)
    unfold detectLines
    rw [if_pos hk]
    exact hx2
  unfold detectLines at hx
  split at hx
  · exact arc hx
  · cases hp : warcParser.parseLines full ls with
    | mk y l2 =>
    rw [hp] at hx
    cases y with
    | ok v =>
      cases hx
      have hf : (fields .warc hd).format = .warc := rfl
      rw [hf] at hk
      unfold detectLines
      rw [if_neg (by rcases hk with hk | ⟨hk, _⟩ <;> rw [hk] <;> decide), hp]
    | error e =>
      have hs : ∀ line, e = .statusParser line → line = full ∧ l2 = ls := by
        rintro line rfl
        unfold HeaderParser.parseLines at hp
        split at hp
        · cases hp
        · split at hp
          · cases hp
          · cases hq : warcParser.protocolStatus full (rstrip full) with
            | error e =>
              rw [hq] at hp
              cases hp
              unfold HeaderParser.protocolStatus at hq
              split at hq
              · split at hq
                · cases hq
                · cases hq; exact ⟨rfl, rfl⟩
              · cases hq
            | ok ps => rw [hq] at hp; cases hp
      cases e <;> first
        | cases hx; done
        | (obtain ⟨rfl, rfl⟩ := hs _ rfl
           dsimp only at hx
           split at hx
           · cases hx
           · exact arc hx)

theorem detect_known_bytes {o o' : LoadOpts} (h : o.arc2warc = false) (h' : o'.arc2warc = false) {data left : Bytes} {f : HeadFormat} {hd : StatusAndHeaders}
    (hx : detectType o data none = (.ok (f, hd), left)) (hk : o'.knownFormat = some (fields f hd).format ∨ (o'.knownFormat = none ∧ (fields f hd).format = .warc)) :
    detectType o' data none = (.ok (f, hd), left) := by
  obtain ⟨s1, m1, m2⟩ := detect_stream Bytes.exactRead.lineRead o (s := data) (data := data) rfl
  obtain ⟨s2, n1, n2⟩ := detect_stream Bytes.exactRead.lineRead o' (s := data) (data := data) rfl
  rw [hx] at m1
  simp only [Prod.mk.injEq] at m1
  obtain ⟨m1, rfl⟩ := m1
  have := detect_known h h' (Prod.ext m1.symm rfl) hk
  rw [this] at n1 n2
  rw [n1, n2, m2]

/-- A record of the iteration, where it is. -/
theorem parts_find {io : IterOpts} (hc : io.checkDigests = none) {n : Nat} {kf : Option Format} {off : Int} {ws : List (Int × Bytes)} {data : Bytes} {plan : List (List UserOp)} {steps : List Step}
    (h : Parts io m n kf off ws data plan steps) (hp : ∀ ops ∈ plan, ops = wholeOps) : ∀ {i : Nat} {rec : Option (Record Unit)} {vs : List (Except PyErr UserVal)},
    steps[i]? = some (.ok (rec, vs)) → ∃ (n' : Nat) (kf' : Option Format) (off' : Int) (p : Portion) (rec' : Record Unit) (left : Bytes), rec = some rec' ∧ off ≤ off' ∧ data.drop (off' - off).toNat = p.all ∧ off' - off ≤ len data ∧
      p.Shows (io.load kf' (io.ids n')) rec' ∧ p.Parsed (io.load kf' (io.ids n')) m rec' left ∧ (io.noRecordParse = true → left = p.block) ∧ vs = [.ok (.bytes left), .ok (.int off'), .ok (.int (len p.bytes))] := by
  have stop : ∀ (plan : List (List UserOp)) (e : PyErr) (i : Nat) (x : Option (Record Unit) × List (Except PyErr UserVal)), ((.error e : Step) :: plan.map (fun _ => .error .stopIteration))[i]? ≠ some (.ok x) := by
    intro plan e i x hx
    have := List.mem_of_getElem? hx
    simp at this
  induction h with
  | enough => intro i rec vs hi; simp at hi
  | record n kf off ws p ops plan rec left vs steps h1 h1' h2 h3 h4 h5 ih =>
    intro i rec0 vs0 hi
    have := hp ops (by simp)
    subst this
    cases i with
    | zero =>
      simp only [List.getElem?_cons_zero, Option.some.injEq, Except.ok.injEq, Prod.mk.injEq] at hi
      obtain ⟨rfl, rfl⟩ := hi
      exact ⟨n, kf, off, p, rec, left, rfl, Int.le_refl _, by simp, by simp [len], h1, h1', fun h => h3 (.inl h), whole_answers hc h4⟩
    | succ i =>
      rw [List.getElem?_cons_succ] at hi
      obtain ⟨n', kf', off', p', rec', left', k1, k2, k3, k4, k5⟩ := ih (fun ops h => hp ops (by simp [h])) hi
      have hsk := skipped_append p.tail
      have hl := congrArg List.length hsk
      simp only [List.length_append] at hl
      have hpos : (0 : Int) ≤ len p.bytes + len (skipped p.tail) := by simp only [len]; omega
      refine ⟨n', kf', off', p', rec', left', k1, by omega, ?_, ?_, k5⟩
      · have e1 : p.all = (p.bytes ++ skipped p.tail) ++ resumed p.tail := by
          rw [List.append_assoc, hsk]; simp [Portion.all, Portion.bytes]
        have e2 : (off' - off).toNat = (p.bytes ++ skipped p.tail).length + (off' - (off + len p.bytes + len (skipped p.tail))).toNat := by
          simp only [List.length_append, len] at k2 ⊢; omega
        rw [e1, e2, List.drop_append, List.drop_eq_nil_of_le (by omega), List.nil_append, Nat.add_sub_cancel_left]
        exact k3
      · simp only [len, Portion.all, Portion.bytes, List.length_append] at k4 hl ⊢; omega
  | broken _ _ _ _ _ _ plan e h => rw [hc] at h; cases h
  | over _ _ _ _ _ _ plan e _ => intro i rec vs hi; exact absurd hi (stop plan e i _)

theorem portion_ext {p p' : Portion} (h1 : p'.head = p.head) (h2 : p'.block = p.block) (h3 : p'.tail = p.tail) : p' = p := by
  cases p
  cases p'
  simp only at h1 h2 h3
  subst h1 h2 h3
  rfl

theorem parts_nil {io : IterOpts} {n : Nat} {kf : Option Format} {off : Int} {ws : List (Int × Bytes)} {data : Bytes} {steps : List Step}
    (h : Parts io m n kf off ws data [] steps) : steps = [] := by
  generalize hpl : ([] : List (List UserOp)) = plan at h
  cases h <;> first | rfl | cases hpl

theorem blockAt_shows {o : LoadOpts} {p : Portion} {rec : Record Unit} (h : p.Shows o rec) : blockAt o p.all = p.block := by
  obtain ⟨⟨f, hd, d1, _, _, _, _, d6⟩, _, _, _, e1⟩ := h
  unfold blockAt
  rw [d1]
  dsimp only
  rw [← d6, ← e1]

/-- The record at the front of some bytes is determined by them. -/
theorem shows_unique {o o' : LoadOpts} (h : o.arc2warc = false) (h' : o'.arc2warc = false) (hn : o'.noRecordParse = o.noRecordParse) (hv : o'.verifyHttp = o.verifyHttp)
    (hc : o.checkDigests = none) (hc' : o'.checkDigests = none) (he : o'.ensureHttpHeaders = o.ensureHttpHeaders) {p p' : Portion} (ha : p'.all = p.all) {rec rec' : Record Unit} (hs : p.Shows o rec) (hs' : p'.Shows o' rec')
    (hk : o'.knownFormat = some rec.format ∨ (o'.knownFormat = none ∧ rec.format = .warc)) {m m' : Nat} {left left' : Bytes} (hp : p.Parsed o m rec left) (hp' : p'.Parsed o' m' rec' left')
    (hw : (o.noRecordParse = true ∧ left = p.block ∧ left' = p'.block) ∨ (HeadWithin m p.block ∧ HeadWithin m' p.block)) : p' = p ∧ rec' = rec ∧ left' = left := by
  obtain ⟨⟨f, hd, d1, d2, d3, d4, d5, d6⟩, b1, c1, n1, e1⟩ := hs
  obtain ⟨⟨f', hd', d1', d2', d3', d4', d5', d6'⟩, b1', c1', n1', e1'⟩ := hs'
  rw [d2] at hk
  have hd' := d1'
  have := detect_known_bytes h h' d1 hk
  rw [ha, this] at d1'
  simp only [Prod.mk.injEq, Except.ok.injEq] at d1'
  obtain ⟨⟨rfl, rfl⟩, hbt⟩ := d1'
  have hlen : rec'.length = rec.length := d6'.trans d6.symm
  have hblock : p'.block = p.block := by rw [e1', ← hbt, hlen, ← e1]
  have htail : p'.tail = p.tail := by rw [hblock] at hbt; exact (List.append_cancel_left hbt).symm
  have hhead : p'.head = p.head := by
    unfold Portion.all at ha
    rw [hblock, htail] at ha
    exact List.append_cancel_right (List.append_cancel_right ha)
  have hct : rec'.contentType = rec.contentType := d5'.trans d5.symm
  have e2 := d2'.trans d2.symm
  have e3 := d3'.trans d3.symm
  have e4 := d4'.trans d4.symm
  have e7 : rec'.checker = rec.checker := by rw [c1', c1, hc, hc']
  have key : rec'.payloadLength = rec.payloadLength ∧ rec'.httpHeaders = rec.httpHeaders ∧ left' = left := by
    rcases hw with ⟨hn0, rfl, rfl⟩ | ⟨w1, w2⟩
    · obtain ⟨b2, b3⟩ := b1 (.inl hn0)
      obtain ⟨b2', b3'⟩ := b1' (.inl (hn.trans hn0))
      exact ⟨b2'.trans b2.symm, by rw [b3', b3, hlen, hct, he], hblock⟩
    · obtain ⟨http, x1, x2, x3⟩ := hp (.inl hc) w1 _ _ d1
      obtain ⟨http', x1', x2', x3'⟩ := hp' (.inl hc') (by rw [hblock]; exact w2) _ _ hd'
      rw [hn, hv, hlen, hblock, x1] at x1'
      simp only [Prod.mk.injEq, Except.ok.injEq] at x1'
      obtain ⟨rfl, rfl⟩ := x1'
      exact ⟨by rw [x3', x3, hlen, hblock], by rw [x2', x2, hlen, hct, he], rfl⟩
  obtain ⟨e5, e6, e8⟩ := key
  refine ⟨portion_ext hhead hblock htail, ?_, e8⟩
  cases rec
  cases rec'
  simp only at hlen hct e2 e3 e4 e5 e6 e7
  subst hlen hct e2 e3 e4 e5 e6 e7
  rfl

/-- Where an HTTP message is to be and there is nothing, there is no record. -/
theorem http_nothing {v : Bool} {a u : Option Str} {n : Option Int} (h : HttpRecord a u) (hr : a ≠ some (lit "revisit")) (hn : n ≠ some 0) {x : Option StatusAndHeaders} {b : Bytes} :
    loadHttpHeaders v a u n ([] : Bytes) ≠ (.ok x, b) := by
  intro hx
  obtain ⟨ht, uri, rfl, hu⟩ := h
  unfold loadHttpHeaders at hx
  rw [if_neg hn] at hx
  cases a with
  | none => simp [HttpType] at ht
  | some ty =>
    dsimp only at hx
    rw [if_neg (by simpa using (httpRecords_iff ty).2 ht), if_neg (by simpa using (httpSchemes_iff uri).2 hu)] at hx
    have hp : ∀ c : HeaderParser, c.parse ([] : Bytes) = (.error .eofError, []) := fun c => rfl
    rw [hp, hp] at hx
    split at hx
    · cases hx
    · dsimp only at hx
      rw [if_neg (fun h => hr (by rw [h.1]))] at hx
      cases hx

theorem http_no_uri {v : Bool} {a : Option Str} {n : Option Int} (ht : HttpType a) (hn : n ≠ some 0) {x : Option StatusAndHeaders} {s b : Bytes} :
    loadHttpHeaders v a none n s ≠ (.ok x, b) := by
  intro hx
  unfold loadHttpHeaders at hx
  rw [if_neg hn] at hx
  cases a with
  | none => simp [HttpType] at ht
  | some ty =>
    dsimp only at hx
    rw [if_neg (by simpa using (httpRecords_iff ty).2 ht)] at hx
    cases hx

/-- C88: in any uncompressed file, iterated without checking digests, opening the file at the offset
reported for a record, for the format of the record, gives this record first: the same headers, the same
HTTP headers, the same data, the same offset and length.  The format need not be known if it is WARC.
If HTTP headers are parsed, their lines must be such that both files are read line by line. -/
theorem C88_reopen (L : LawfulGzip IsMember) {f : FileObj} {bs : Nat} (h : Uncompressed f bs) {m : Nat} (hl : Lined f bs m) {io : IterOpts} (hn : io.noRecordParse = true ∨ io.verifyHttp = false) (hc : io.checkDigests = none)
    (ha : io.arc2warc = false) (kf : Option Format) :
    ∃ it, openArchive f io bs kf = .ok it ∧ ∀ (k i : Nat) rec data off size,
      (iterate it (List.replicate k wholeOps))[i]? = some (.ok (some rec, [.ok (.bytes data), .ok (.int off), .ok (.int size)])) →
      ∀ (f' : FileObj) (bs' m' : Nat), Uncompressed f' bs' → Lined f' bs' m' → f'.rest = f.rest.drop (off - f.origin).toNat → f'.origin = off →
      ∀ kf', kf' = some rec.format ∨ (kf' = none ∧ rec.format = .warc) →
      (io.noRecordParse = true ∨ HeadWithin (min m m') (blockAt (io.load kf' (io.ids 0)) f'.rest)) →
      ∃ it', openArchive f' io bs' kf' = .ok it' ∧
        iterate it' [wholeOps] = [.ok (some rec, [.ok (.bytes data), .ok (.int off), .ok (.int size)])] := by
  have hw : ∀ k, PlanOk (List.replicate k wholeOps) := by
    intro k ops h o ho
    rw [(List.mem_replicate.1 h).2] at ho
    simp only [wholeOps, List.mem_cons, List.not_mem_nil, or_false] at ho
    rcases ho with rfl | rfl | rfl
    · intro n hn; cases hn
    · trivial
    · trivial
  obtain ⟨it, k1, k2⟩ := C87_parts L h hl io kf
  refine ⟨it, k1, ?_⟩
  intro k i rec data off size hi f' bs' m' hu hl' hr ho kf' hk hwi
  obtain ⟨n1, kf1, off1, p, rec1, left, m1, m2, m3, m4, m5, m5', m6, m7⟩ := parts_find hc (k2 _ (hw k)) (fun ops h => (List.mem_replicate.1 h).2) hi
  cases m1
  simp only [List.cons.injEq, Except.ok.injEq, UserVal.bytes.injEq, UserVal.int.injEq, and_true] at m7
  obtain ⟨rfl, rfl, rfl⟩ := m7
  obtain ⟨it', q1, q2⟩ := C87_parts L hu hl' io kf'
  refine ⟨it', q1, ?_⟩
  have q3 := q2 [wholeOps] (hw 1)
  have hall : f'.rest = p.all := hr.trans m3
  obtain ⟨⟨fm, hd, d1, d2, _, _, _, d6⟩, _, _, n2, e9⟩ := id m5
  have d3 := detect_known_bytes (o := io.load kf1 (io.ids n1)) (o' := io.load kf' (io.ids 0)) ha ha d1 (by rw [← d2]; exact hk)
  have hba : blockAt (io.load kf' (io.ids 0)) f'.rest = p.block := by
    rw [hall]
    unfold blockAt
    rw [d3]
    dsimp only
    rw [← d6, ← e9]
  rw [hba] at hwi
  generalize hst : iterate it' [wholeOps] = steps at q3 ⊢
  generalize hdt : f'.rest = dat at q3
  generalize hpl : [wholeOps] = plan at q3
  cases q3 with
  | enough => cases hpl
  | record _ _ _ _ p' ops plan rec' left' vs steps h1 h1' h2 h3 h4 h5 =>
    cases hpl
    have := parts_nil h5
    subst this
    have hap : p'.all = p.all := hdt.symm.trans hall
    obtain ⟨rfl, rfl, rfl⟩ := shows_unique (o := io.load kf1 (io.ids n1)) (o' := io.load kf' (io.ids 0)) ha ha rfl rfl hc hc rfl hap m5 h1 hk m5' h1'
      (hwi.imp (fun hn0 => ⟨hn0, m6 hn0, h3 (.inl hn0)⟩) (fun hw0 => ⟨within_mono hw0 (Nat.min_le_left _ _), within_mono hw0 (Nat.min_le_right _ _)⟩))
    have e1 := whole_answers hc h4
    rw [e1, ho]
  | broken _ _ _ _ _ _ _ e h => rw [hc] at h; cases h
  | over _ _ _ _ _ _ _ e h =>
    exfalso
    rw [← hdt, hall] at h
    have hne : p.all ≠ [] := fun h0 => n2 (List.append_eq_nil_iff.1 (List.append_eq_nil_iff.1 h0).1).1
    have hfirst : io.noRecordParse = false → ∃ http left, loadHttpHeaders io.verifyHttp (fields fm hd).recType (fields fm hd).uri rec.length p.block = (.ok http, left) := by
      intro h0
      have hw0 := hwi.resolve_left (by rw [h0]; simp)
      obtain ⟨http, x1, -⟩ := m5' (.inl hc) (within_mono hw0 (Nat.min_le_left _ _)) _ _ d1
      have hn0 : (io.load kf1 (io.ids n1)).noRecordParse = false := h0
      rw [hn0] at x1
      exact ⟨http, _, x1⟩
    cases h with
    | empty h => exact hne h
    | head e left _ h => rw [d3] at h; cases h
    | bare f h _ g1 g2 g3 g4 g5 =>
      rw [d3] at g1
      simp only [Prod.mk.injEq, Except.ok.injEq] at g1
      obtain ⟨⟨rfl, rfl⟩, g1⟩ := g1
      obtain ⟨http, left, x1⟩ := hfirst g2
      rw [(List.append_eq_nil_iff.1 g1).1] at x1
      exact http_nothing g3 g4 (by rw [d6]; exact g5) x1
    | digest e f h left _ _ _ _ h =>
      have : (io.load kf' (io.ids 0)).checkDigests = none := hc
      rw [this] at h; cases h
    | status l f h left _ _ g2 g3 =>
      have g2 : io.noRecordParse = false := g2
      have g3 : io.verifyHttp = true := g3
      rw [hn.resolve_left (by rw [g2]; simp)] at g3
      cases g3
    | uri f h left _ g1 g2 g3 g4 g5 =>
      rw [d3] at g1
      simp only [Prod.mk.injEq, Except.ok.injEq] at g1
      obtain ⟨⟨rfl, rfl⟩, -⟩ := g1
      obtain ⟨http, left, x1⟩ := hfirst g2
      rw [g4] at x1
      exact http_no_uri g3 (by rw [d6]; exact g5) x1

end

/-! ## The hypotheses are met, and what the model does -/

/-- A file with two blocks that are longer than they say, and with a line that is no record. -/
def exParts : FileObj := { content := exLong.bytes ++ exInfo.bytes ++ exLong.bytes ++ utf8Encode (lit "more\r\n") }

/-- The same file, opened at the third record, for which 191 is reported. -/
def exPartsAt : FileObj := { exParts with pos := 191 }

open Toy in
/-- The hypotheses of `C87_parts`, `C87_tiles` and `C88_reopen`: a file that ends with a line that is
no record, any blocks, short reads; and one with nothing but bytes that are no archive. -/
example : Uncompressed exParts 17 ∧ Lined exParts 17 17 ∧ HeadWithin 17 (blockAt (({} : IterOpts).load none (({} : IterOpts).ids 0)) exPartsAt.rest) ∧ Uncompressed { exParts with caps := [2, 1, 1, 7] } 3 ∧ Uncompressed { content := [0, 255, 10, 31, 139] } 2 ∧
    Uncompressed exPartsAt 17 ∧ exPartsAt.rest = exParts.rest.drop (191 - exParts.origin).toNat ∧ exPartsAt.origin = 191 ∧ IterOpts.checkDigests {} = none :=
  ⟨⟨by decide, by simp [exParts], fun _ => by decide +kernel, by decide +kernel⟩, .inr ⟨rfl, by decide⟩,
   by rw [show blockAt (({} : IterOpts).load none (({} : IterOpts).ids 0)) exPartsAt.rest = exHttp.block by decide +kernel]; exact .line (by decide +kernel) (by decide +kernel) (.line (by decide +kernel) (by decide +kernel) (.blank (by decide +kernel) (by decide +kernel) (by decide +kernel))),
   ⟨by decide, by simp, fun _ => by decide +kernel, by decide +kernel⟩,
   ⟨by decide, by simp, fun _ => by decide +kernel, by decide +kernel⟩, ⟨by decide, by simp [exPartsAt, exParts], fun _ => by decide +kernel, by decide +kernel⟩,
   by decide +kernel, by decide +kernel, rfl⟩

open Toy in
/-- The hypothesis of `C87_http` on the type and target of the record: the third record of this file. -/
example (left : Bytes) : ∀ f h, Loader.detectType (({} : IterOpts).load none (({} : IterOpts).ids 0)) exPartsAt.rest none = (.ok (f, h), left) →
    HttpRecord (Loader.fields f h).recType (Loader.fields f h).uri := by
  intro f h hx
  have e : (match (Loader.detectType (({} : IterOpts).load none (({} : IterOpts).ids 0)) exPartsAt.rest none).1 with
      | .ok (f, h) => some ((Loader.fields f h).recType, (Loader.fields f h).uri) | .error _ => none) = some (some (lit "response"), some (lit "http://x/")) := by decide +kernel
  rw [hx] at e
  simp only [Option.some.injEq, Prod.mk.injEq] at e
  rw [e.1, e.2]
  exact ⟨.inl rfl, lit "http://x/", rfl, .inl (by decide)⟩

open Toy in
/-- The pieces of this file, and then the exception of the loader. -/
example : (steps exParts {} 16384 (List.replicate 5 [.offset, .size])).map (fun s => s.map (fun x => x.2)) =
    [.ok [.ok (.int 0), .ok (.int 108)], .ok [.ok (.int 116), .ok (.int 71)], .ok [.ok (.int 191), .ok (.int 108)],
     .error .invalidWarc, .error .stopIteration] := by decide +kernel

open Toy in
/-- The third record, by iterating and by opening the file there. -/
example : ((steps exParts { noRecordParse := true } 16384 (List.replicate 3 wholeOps)).drop 2).map (fun s => s.map (fun x => (x.1.map (fun r => r.format), x.2))) =
      [.ok (some .warc, [.ok (.bytes exHttp.block), .ok (.int 191), .ok (.int 108)])] ∧
    (steps exPartsAt { noRecordParse := true } 17 [wholeOps]).map (fun s => s.map (fun x => (x.1.map (fun r => r.format), x.2))) =
      [.ok (some .warc, [.ok (.bytes exHttp.block), .ok (.int 191), .ok (.int 108)])] := by decide +kernel

open Toy in
/-- The same with the HTTP headers. -/
example : (steps exParts {} 17 (List.replicate 3 wholeOps)).drop 2 = steps exPartsAt {} 17 [wholeOps] ∧
    (steps exPartsAt {} 17 [wholeOps]).map (fun s => s.map (fun x => (x.1.bind (fun r => r.httpHeaders.map (fun h => h.statusline)), x.2))) =
      [.ok (some (lit "200 OK"), [.ok (.bytes (utf8Encode (lit "xy"))), .ok (.int 191), .ok (.int 108)])] := by decide +kernel

/-- A response whose first line is none of HTTP/1, behind one that is. -/
def exUnverified : FileObj := { content := exLong.bytes ++ utf8Encode (lit "WARC/1.0\r\nWARC-Type: response\r\nWARC-Target-URI: http://x/\r\nContent-Length: 20\r\n\r\nHTTP/2 200 OK\r\n\r\nabc\r\n\r\n") }

open Toy in
/-- `verify_http` (`C87_verify`): the first record is yielded, and the second one is refused. -/
example : (steps exUnverified { verifyHttp := true } 16384 [wholeOps, wholeOps]).map (fun s => s.map (fun x => (x.1.bind (fun r => r.httpHeaders.map (fun h => (h.protocol, h.statusline))), x.2))) =
    [.ok (some (lit "HTTP/1.1", lit "200 OK"), [.ok (.bytes (utf8Encode (lit "xy"))), .ok (.int 0), .ok (.int 108)]), .error (.statusParser (lit "HTTP/2 200 OK\r\n"))] := by decide +kernel

open Toy in
/-- A file that starts with a blank line is one record without headers, and all of it is its block. -/
example : (steps { content := 13 :: 10 :: exInfo.bytes } {} 16384 [wholeOps, []]).map (fun s => s.map (fun x => x.2)) =
    [.ok [.ok (.bytes exInfo.bytes), .ok (.int 0), .ok (.int (2 + len exInfo.bytes))], .error .stopIteration] := by decide +kernel

end Warcio.Props
