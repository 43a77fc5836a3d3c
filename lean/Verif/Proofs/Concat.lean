import Verif.Spec.Concat
import Verif.Proofs.Parts

/-!
# Files put one behind the other
-/

set_option linter.unusedSectionVars false

namespace Warcio

open Loader

theorem EndsLine.mem {x : Bytes} (h : EndsLine x) : (10 : UInt8) ∈ x := by
  obtain ⟨d, rfl⟩ := h
  simp

theorem EndsLine.suffix {x y : Bytes} (h : EndsLine x) (hs : y <:+ x) (hy : y ≠ []) : EndsLine y := by
  obtain ⟨d, rfl⟩ := h
  obtain ⟨z, hz⟩ := hs
  refine ⟨y.dropLast, ?_⟩
  have h1 : y.getLast hy = 10 := by
    have := congrArg List.getLast? hz
    rw [List.getLast?_append, List.getLast?_eq_some_getLast hy, List.getLast?_append] at this
    simpa using this
  have := List.dropLast_concat_getLast hy
  rw [h1] at this
  exact this.symm

theorem splitLines_append : ∀ (n : Nat) {x : Bytes}, x.length ≤ n → x = [] ∨ EndsLine x → ∀ b, splitLines (x ++ b) = splitLines x ++ splitLines b
  | n, [], _, _, b => rfl
  | 0, x :: xs, h, _, b => by simp at h
  | n + 1, x :: xs, hl, h, b => by
    have h := h.resolve_left (fun h => by cases h)
    rw [splitLines_cons (b := x :: xs ++ b) (by simp), splitLines_cons (b := x :: xs) (by simp), takeLine_append_of_nl h.mem, dropLine_append_of_nl h.mem]
    have e := takeLine_append_dropLine (x :: xs)
    have e1 := congrArg List.length e
    have e2 := List.length_pos_iff.2 (takeLine_ne_nil (b := x :: xs) (by simp))
    rw [List.length_append] at e1
    rw [splitLines_append n (by omega) (by
      by_cases h0 : dropLine (x :: xs) = []
      · exact .inl h0
      · exact .inr (h.suffix ⟨_, e⟩ h0)) b]
    rfl

theorem readBlock_append : ∀ (ls ls2 : List Bytes), (readBlock ls).2.1 ≠ [] → readBlock (ls ++ ls2) = ((readBlock ls).1, (readBlock ls).2.1 ++ ls2, (readBlock ls).2.2)
  | [], ls2, h => absurd rfl h
  | l :: ls, ls2, h => by
    simp only [List.cons_append, readBlock] at h ⊢
    by_cases hl : lineText l = []
    · simp only [hl, if_true]
    · simp only [hl, if_false] at h ⊢
      rw [readBlock_append ls ls2 h]

section
variable [PyUni] [Hashlib]

theorem arcSkip_append (full : Str) (ls ls2 : List Bytes) (h : (arcSkip full ls).2 ≠ []) : arcSkip full (ls ++ ls2) = ((arcSkip full ls).1, (arcSkip full ls).2 ++ ls2) := by
  unfold arcSkip at h ⊢
  split
  · rename_i hf
    rw [if_pos hf] at h
    match ls, h with
    | a :: b :: c :: ls, _ => rfl
    | [], h => exact absurd rfl h
    | [_], h => exact absurd rfl h
    | [_, _], h => exact absurd rfl h
  · rfl

theorem detectArcLines_append {o : LoadOpts} {full : Str} {ls ls' : List Bytes} {f : HeadFormat} {h : StatusAndHeaders} (hd : detectArcLines o full ls = (.ok (f, h), ls')) (hne : ls' ≠ []) (ls2 : List Bytes) :
    detectArcLines o full (ls ++ ls2) = (.ok (f, h), ls' ++ ls2) := by
  unfold detectArcLines arcLines at hd ⊢
  by_cases h0 : full = []
  · rw [if_pos h0] at hd; cases hd
  · rw [if_neg h0] at hd ⊢
    dsimp only at hd ⊢
    by_cases hp : (rsplitN ' ' 4 (rstrip full)).length ≠ 5
    · rw [if_pos hp] at hd; cases hd
    · rw [if_neg hp] at hd ⊢
      obtain ⟨hs, hh⟩ := arcHeaders_ok o (rstrip full) (rsplitN ' ' 4 (rstrip full))
      rw [hh] at hd ⊢
      simp only [Prod.mk.injEq, Except.ok.injEq] at hd
      obtain ⟨⟨rfl, rfl⟩, rfl⟩ := hd
      rw [arcSkip_append _ _ _ hne]

theorem detectLines_append {o : LoadOpts} {full : Str} {ls ls' : List Bytes} {f : HeadFormat} {h : StatusAndHeaders} (hd : detectLines o full ls = (.ok (f, h), ls')) (hne : ls' ≠ []) (ls2 : List Bytes) :
    detectLines o full (ls ++ ls2) = (.ok (f, h), ls' ++ ls2) := by
  unfold detectLines at hd ⊢
  by_cases hk : o.knownFormat = some .arc
  · rw [if_pos hk] at hd ⊢; exact detectArcLines_append hd hne ls2
  · rw [if_neg hk] at hd ⊢
    unfold HeaderParser.parseLines at hd ⊢
    by_cases h0 : full = []
    · rw [if_pos h0] at hd; cases hd
    · rw [if_neg h0] at hd ⊢
      by_cases h1 : rstrip full = []
      · rw [if_pos h1] at hd ⊢
        simp only [Prod.mk.injEq, Except.ok.injEq] at hd ⊢
        obtain ⟨⟨rfl, rfl⟩, rfl⟩ := hd
        exact ⟨⟨rfl, rfl⟩, rfl⟩
      · rw [if_neg h1] at hd ⊢
        cases hp : warcParser.protocolStatus full (rstrip full) with
        | error e =>
          rw [hp] at hd
          have : e = .statusParser full := by
            unfold HeaderParser.protocolStatus at hp
            split at hp
            · split at hp
              · cases hp
              · cases hp; rfl
            · cases hp
          subst this
          dsimp only at hd ⊢
          split at hd
          · cases hd
          · rename_i hw
            rw [if_neg hw]
            exact detectArcLines_append hd hne ls2
        | ok ps =>
          rw [hp] at hd
          simp only [Prod.mk.injEq, Except.ok.injEq] at hd ⊢
          obtain ⟨⟨rfl, rfl⟩, rfl⟩ := hd
          rw [readBlock_append _ _ hne]
          exact ⟨⟨rfl, rfl⟩, rfl⟩

/-- Bytes behind the file do not matter to a header block that is followed by something. -/
theorem detect_extend {o : LoadOpts} {x left : Bytes} {f : HeadFormat} {h : StatusAndHeaders} (hx : EndsLine x) (hd : detectType o x none = (.ok (f, h), left)) (hl : left ≠ []) (b : Bytes) :
    detectType o (x ++ b) none = (.ok (f, h), left ++ b) := by
  obtain ⟨s1, m1, m2⟩ := detect_stream Bytes.exactRead.lineRead o (s := x) (data := x) rfl
  obtain ⟨s2, n1, n2⟩ := detect_stream Bytes.exactRead.lineRead o (s := x ++ b) (data := x ++ b) rfl
  rw [takeLine_append_of_nl hx.mem, dropLine_append_of_nl hx.mem] at n1 n2
  have hdl : dropLine x = [] ∨ EndsLine (dropLine x) := by
    by_cases h0 : dropLine x = []
    · exact .inl h0
    · exact .inr (hx.suffix ⟨_, takeLine_append_dropLine x⟩ h0)
  rw [splitLines_append _ (Nat.le_refl _) hdl] at n1 n2
  rw [hd] at m1
  generalize hq : detectLines o (decodeHeader (takeLine x)) (splitLines (dropLine x)) = q at m1 m2
  obtain ⟨y, ls'⟩ := q
  simp only [Prod.mk.injEq] at m1
  obtain ⟨rfl, rfl⟩ := m1
  have m2 : left = ls'.flatten := m2
  have hne : ls' ≠ [] := by rintro rfl; exact hl m2
  rw [detectLines_append hq hne] at n1 n2
  have n2 : s2 = (ls' ++ splitLines b).flatten := n2
  rw [n1, n2, List.flatten_append, splitLines_flatten, ← m2]

theorem first_append {tl : Bytes} (h : EndsLine tl) (b : Bytes) : splitLines (tl ++ b) = takeLine tl :: (splitLines (dropLine tl) ++ splitLines b) := by
  rw [splitLines_append _ (Nat.le_refl _) (.inr h), splitLines_cons (by rintro rfl; exact absurd h.mem (by simp))]
  rfl

theorem stray_append {tl : Bytes} (h : EndsLine tl) (b : Bytes) : strayLines (tl ++ b) = strayLines tl := by
  unfold strayLines
  rw [first_append h, splitLines_cons (b := tl) (by rintro rfl; exact absurd h.mem (by simp))]
  rfl

theorem resumed_append {tl : Bytes} (h : EndsLine tl) {b : Bytes} (hb : blankLine (takeLine b) = false) : resumed (tl ++ b) = resumed tl ++ b ∧ skipped (tl ++ b) = skipped tl := by
  have hne : b ≠ [] := by rintro rfl; cases hb
  unfold resumed skipped
  rw [first_append h, splitLines_cons (b := tl) (by rintro rfl; exact absurd h.mem (by simp))]
  simp only [List.drop_succ_cons, List.drop_zero, List.take_succ_cons, List.take_zero, List.dropWhile_append, List.takeWhile_append]
  have hb1 : (splitLines b).dropWhile blankLine = splitLines b ∧ (splitLines b).takeWhile blankLine = [] := by
    rw [splitLines_cons hne]
    simp [hb]
  rw [hb1.1, hb1.2]
  constructor
  · split
    · rename_i h1
      rw [List.isEmpty_iff] at h1
      rw [h1, splitLines_flatten]
      rfl
    · rw [List.flatten_append, splitLines_flatten]
  · split
    · rename_i h1
      rw [List.append_nil]
      congr 2
      exact ((List.takeWhile_prefix _).eq_of_length h1).symm
    · rfl

/-! ## Records -/

/-- With more behind it. -/
def Portion.with (p : Portion) (b : Bytes) : Portion := ⟨p.head, p.block, p.tail ++ b⟩

theorem Portion.with_all (p : Portion) (b : Bytes) : (p.with b).all = p.all ++ b := by
  simp [Portion.with, Portion.all]

variable {o : LoadOpts} {p : Portion} {rec rec' : Record Unit} {b : Bytes}

theorem Portion.tail_ends (hx : EndsLine p.all) (ht : p.tail ≠ []) : EndsLine p.tail := hx.suffix ⟨p.head ++ p.block, rfl⟩ ht

/-- Two cuts of the same bytes. -/
theorem shows_same {p' : Portion} (ha : p'.all = p.all) (hs : p.Shows o rec) (hs' : p'.Shows o rec') : p' = p := by
  obtain ⟨⟨f, hd, d1, d2, d3, d4, d5, d6⟩, b1, c1, n1, e1⟩ := hs
  obtain ⟨⟨f', hd', d1', d2', d3', d4', d5', d6'⟩, b1', c1', n1', e1'⟩ := hs'
  rw [ha, d1] at d1'
  simp only [Prod.mk.injEq, Except.ok.injEq] at d1'
  obtain ⟨⟨rfl, rfl⟩, hbt⟩ := d1'
  have hlen : rec'.length = rec.length := d6'.trans d6.symm
  have hblock : p'.block = p.block := by rw [e1', ← hbt, hlen, ← e1]
  have htail : p'.tail = p.tail := by rw [hblock] at hbt; exact (List.append_cancel_left hbt).symm
  have hhead : p'.head = p.head := by
    unfold Portion.all at ha
    rw [hblock, htail] at ha
    exact List.append_cancel_right (List.append_cancel_right ha)
  cases p; cases p'; cases hblock; cases htail; cases hhead; rfl

theorem declared_all {n : Int} {x y : Bytes} (h : n = len x) : declaredPart (some n) (x ++ y) = x := by
  subst h
  simp [declaredPart, len]

/-- With more behind it a record is the same. -/
theorem shows_with (hx : EndsLine p.all) (hs : p.Shows o rec) (hl : rec.length = some (len p.block)) (ht : p.tail ≠ []) (b : Bytes) : (p.with b).Shows o rec := by
  obtain ⟨⟨f, hd, d1, d2⟩, b1, c1, n1, e1⟩ := hs
  refine ⟨⟨f, hd, ?_, d2⟩, b1, c1, n1, ?_⟩
  · rw [Portion.with_all, detect_extend hx d1 (by intro h; exact ht (List.append_eq_nil_iff.1 h).2)]
    simp [Portion.with]
  · rw [hl]
    exact (declared_all rfl).symm

/-- And with less. -/
theorem shows_without (hx : EndsLine p.all) (hs : p.Shows o rec) (hl : rec.length = some (len p.block)) (ht : p.tail ≠ []) (hs' : (p.with b).Shows o rec') : p.Shows o rec' ∧ rec'.format = rec.format ∧ rec'.length = rec.length := by
  obtain ⟨⟨f, hd, d1, d2, d3, d4, d5, d6⟩, b1, c1, n1, e1⟩ := hs
  obtain ⟨⟨f', hd', d1', d2', d3', d4', d5', d6'⟩, b1', c1', n1', e1'⟩ := hs'
  have := detect_extend hx d1 (by intro h; exact ht (List.append_eq_nil_iff.1 h).2) b
  rw [Portion.with_all, this] at d1'
  simp only [Prod.mk.injEq, Except.ok.injEq] at d1'
  obtain ⟨⟨rfl, rfl⟩, -⟩ := d1'
  refine ⟨⟨⟨f, hd, d1, d2', d3', d4', d5', d6'⟩, b1', c1', n1, ?_⟩, d2'.trans d2.symm, d6'.trans d6.symm⟩
  rw [d6', ← d6, hl]
  exact (declared_all rfl).symm

theorem parsed_without (hx : EndsLine p.all) (ht : p.tail ≠ []) {m : Nat} {left : Bytes} (h : (p.with b).Parsed o m rec left) : p.Parsed o m rec left := by
  intro h1 h2 f hd h3
  exact h h1 h2 f hd (by rw [Portion.with_all, detect_extend hx h3 (by intro h; exact ht (List.append_eq_nil_iff.1 h).2)]; simp [Portion.with])

theorem over_without {m : Nat} (hx : EndsLine p.all) (hs : p.Shows o rec) (hlen : rec.length = some (len p.block)) (ht : p.tail ≠ []) {e : PyErr} (h : Over o m (p.all ++ b) e) : Over o m p.all e := by
  obtain ⟨⟨f, hd, d1, -, -, -, -, d6⟩, -, -, n1, -⟩ := hs
  have hne : p.all ≠ [] := by
    intro h0; exact n1 (List.append_eq_nil_iff.1 (List.append_eq_nil_iff.1 h0).1).1
  have d2 := detect_extend hx d1 (by intro h; exact ht (List.append_eq_nil_iff.1 h).2) b
  have key : ∀ {f' h' left}, detectType o (p.all ++ b) none = (.ok (f', h'), left) → f' = f ∧ h' = hd ∧ left = p.block ++ p.tail ++ b := by
    intro f' h' left h1
    rw [d2] at h1
    simp only [Prod.mk.injEq, Except.ok.injEq] at h1
    obtain ⟨⟨rfl, rfl⟩, rfl⟩ := h1
    exact ⟨rfl, rfl, rfl⟩
  cases h with
  | empty h0 => exact absurd (List.append_eq_nil_iff.1 h0).1 hne
  | head e left _ h1 => rw [d2] at h1; cases h1
  | bare f' h' _ h1 =>
    obtain ⟨-, -, h2⟩ := key h1
    exact absurd (List.append_eq_nil_iff.1 (List.append_eq_nil_iff.1 h2.symm).1).2 ht
  | digest e f' h' left _ h1 h2 h3 h4 h5 =>
    obtain ⟨rfl, rfl, -⟩ := key h1
    exact .digest e _ _ _ hne d1 h2 h3 h4 h5
  | status l f' h' left _ h1 h2 h3 h4 =>
    obtain ⟨rfl, rfl, rfl⟩ := key h1
    refine .status l _ _ _ hne d1 h2 h3 ?_
    rw [← d6, hlen] at h4 ⊢
    rw [List.append_assoc, declared_all rfl] at h4
    rw [declared_all rfl]
    exact h4
  | uri f' h' left _ h1 h2 h3 h4 h5 =>
    obtain ⟨rfl, rfl, -⟩ := key h1
    exact .uri _ _ _ hne d1 h2 h3 h4 h5

theorem answer_without {io : IterOpts} (ht : EndsLine p.tail) {off : Int} {ws : List (Int × Bytes)} {left left' : Bytes} {op : UserOp} {v : Except PyErr UserVal} (h : (p.with b).Answer io off ws left op v left') : p.Answer io off ws left op v left' := by
  have hb : (p.with b).bytes = p.bytes := rfl
  have hst : strayLines (p.with b).tail = strayLines p.tail := stray_append ht b
  unfold Portion.Answer at h ⊢
  rw [hb, hst] at h
  exact h

theorem answers_without {io : IterOpts} (ht : EndsLine p.tail) {off : Int} {ws : List (Int × Bytes)} {left : Bytes} {ops : List UserOp} {vs : List (Except PyErr UserVal)} (h : (p.with b).Answers io off ws left ops vs) : p.Answers io off ws left ops vs := by
  induction h with
  | nil => exact .nil _
  | cons _ _ _ _ _ _ h1 _ ih => exact .cons _ _ _ _ _ _ (answer_without ht h1) ih

theorem rest_ends (hx : EndsLine p.all) : resumed p.tail = [] ∨ EndsLine (resumed p.tail) := by
  by_cases h0 : resumed p.tail = []
  · exact .inl h0
  · exact .inr (hx.suffix ⟨p.head ++ p.block ++ skipped p.tail, by rw [List.append_assoc, skipped_append]; rfl⟩ h0)

theorem rest_off (off : Int) : off + len p.bytes + len (skipped p.tail) + len (resumed p.tail) = off + len p.all := by
  have := congrArg List.length (skipped_append p.tail)
  simp only [List.length_append, Portion.bytes, Portion.all, len] at this ⊢
  omega

variable {io : IterOpts} {m : Nat}

/-- The iteration. -/
theorem parts_split {kf' : Option Format} (hcd : io.checkDigests = none) (hb : blankLine (takeLine b) = false) {n : Nat} {kf : Option Format} {a : Bytes} {k : Nat} (hC : Complete io m n kf a k kf') :
    (a = [] ∨ EndsLine a) → ∀ {off : Int} {ws : List (Int × Bytes)} {plan1 plan2 : List (List UserOp)} {steps : List Step}, plan1.length = k → Parts io m n kf off ws (a ++ b) (plan1 ++ plan2) steps →
    ∃ s1 s2 ws', steps = s1 ++ s2 ∧ Parts io m n kf off ws a plan1 s1 ∧ Parts io m (n + k) kf' (off + len a) ws' b plan2 s2 := by
  induction hC with
  | nil n kf =>
    intro _ off ws plan1 plan2 steps hl h
    obtain rfl := List.length_eq_zero_iff.1 hl
    refine ⟨[], steps, ws, rfl, .enough _ _ _ _ _, ?_⟩
    simpa [len] using h
  | record n kf p rec k kf' hs hov hlen ht hC ih =>
    intro hx off ws plan1 plan2 steps hl h
    have hne : p.all ≠ [] := by
      intro h0; exact hs.some (List.append_eq_nil_iff.1 (List.append_eq_nil_iff.1 h0).1).1
    have hx := hx.resolve_left hne
    obtain ⟨ops, plan1, rfl⟩ : ∃ ops pl, plan1 = ops :: pl := by
      cases plan1 with
      | nil => simp at hl
      | cons a t => exact ⟨a, t, rfl⟩
    simp only [List.length_cons, Nat.add_right_cancel_iff] at hl
    generalize hdata : p.all ++ b = data at h
    generalize hplan : ops :: plan1 ++ plan2 = plan at h
    cases h with
    | enough => cases hplan
    | broken _ _ _ _ _ _ _ e h1 => rw [hcd] at h1; cases h1
    | over _ _ _ _ _ _ _ e h1 =>
      rw [← hdata] at h1
      exact absurd (over_without hx hs hlen ht h1) (hov e)
    | record _ _ _ _ p' ops' plan' rec' left vs steps' h1 h2 h3 h4 h5 h6 =>
      simp only [List.cons_append, List.cons.injEq] at hplan
      obtain ⟨rfl, rfl⟩ := hplan
      have hp' : p' = p.with b := shows_same (by rw [← hdata, Portion.with_all]) (shows_with hx hs hlen ht b) h1
      subst hp'
      obtain ⟨g1, g2, g3⟩ := shows_without hx hs hlen ht h1
      have hte := Portion.tail_ends hx ht
      obtain ⟨r1, r2⟩ := resumed_append hte hb
      have e1 : resumed (p.with b).tail = resumed p.tail ++ b := r1
      have e2 : skipped (p.with b).tail = skipped p.tail := r2
      have e3 : strayLines (p.with b).tail = strayLines p.tail := stray_append hte b
      have e4 : (p.with b).bytes = p.bytes := rfl
      rw [e1, e2, e3, e4, g2] at h6
      obtain ⟨s1, s2, ws', i1, i2, i3⟩ := ih (rest_ends hx) hl h6
      refine ⟨_ :: s1, s2, ws', by rw [i1]; rfl, .record n kf off ws p ops plan1 rec' left vs s1 g1 (parsed_without hx ht h2) h3 h4 (answers_without hte h5) (by rw [g2]; exact i2), ?_⟩
      rw [rest_off] at i3
      rw [Nat.add_right_comm] at i3
      exact i3

/-- The index. -/
theorem indexed_split {kf' : Option Format} (ha : io.arc2warc = true) (hb : blankLine (takeLine b) = false) {file : Str} {fields : List Str} {n : Nat} {kf : Option Format} {a : Bytes} {k : Nat} (hC : Complete io m n kf a k kf') :
    kf = none → (a = [] ∨ EndsLine a) → ∀ {off : Int} {x : Except PyErr Unit} {es : List (List (Str × Str))}, Indexed io m file fields n off (a ++ b) x es →
    ∃ es1 es2, es = es1 ++ es2 ∧ Indexed io m file fields n off a (.ok ()) es1 ∧ Indexed io m file fields (n + k) (off + len a) b x es2 := by
  induction hC with
  | nil n kf =>
    intro _ _ off x es h
    exact ⟨[], es, rfl, .over n off [] .stopIteration (.empty rfl), by simpa [len] using h⟩
  | record n kf p rec k kf' hs hov hlen ht hC ih =>
    rintro rfl hx off x es h
    have hne : p.all ≠ [] := by
      intro h0; exact hs.some (List.append_eq_nil_iff.1 (List.append_eq_nil_iff.1 h0).1).1
    have hx := hx.resolve_left hne
    generalize hdata : p.all ++ b = data at h
    cases h with
    | over _ _ _ e h1 =>
      rw [← hdata] at h1
      exact absurd (over_without hx hs hlen ht h1) (hov e)
    | record _ _ p' rec' left _ es' h1 h2 h6 =>
      have hp' : p' = p.with b := shows_same (by rw [← hdata, Portion.with_all]) (shows_with hx hs hlen ht b) h1
      subst hp'
      obtain ⟨g1, g2, g3⟩ := shows_without hx hs hlen ht h1
      have hte := Portion.tail_ends hx ht
      obtain ⟨r1, r2⟩ := resumed_append hte hb
      have e1 : resumed (p.with b).tail = resumed p.tail ++ b := r1
      have e2 : skipped (p.with b).tail = skipped p.tail := r2
      have e4 : (p.with b).bytes = p.bytes := rfl
      rw [e1, e2, e4] at h6
      obtain ⟨s1, s2, i1, i2, i3⟩ := ih (by rw [ha]; rfl) (rest_ends hx) h6
      refine ⟨_ :: s1, s2, by rw [i1]; rfl, .record n off p rec' left _ s1 g1 (parsed_without hx ht h2) i2, ?_⟩
      rw [rest_off, Nat.add_right_comm] at i3
      exact i3

/-- The check. -/
theorem checked_split {kf' : Option Format} (hcd : io.checkDigests.isSome = true) (hb : blankLine (takeLine b) = false) {verbose : Bool} {n : Nat} {kf : Option Format} {a : Bytes} {k : Nat} (hC : Complete io m n kf a k kf') :
    (a = [] ∨ EndsLine a) → ∀ {off : Int} {x : Except PyErr Unit} {vs : List (Option Bool)} {out : List Checker.Print}, CheckedParts io m verbose n kf off (a ++ b) x vs out →
    ∃ vs1 vs2 out1 out2, vs = vs1 ++ vs2 ∧ out = out1 ++ out2 ∧ CheckedParts io m verbose n kf off a (.ok ()) vs1 out1 ∧ CheckedParts io m verbose (n + k) kf' (off + len a) b x vs2 out2 := by
  induction hC with
  | nil n kf =>
    intro _ off x vs out h
    exact ⟨[], vs, [], out, rfl, rfl, .over n kf off [] .stopIteration (.empty rfl), by simpa [len] using h⟩
  | record n kf p rec k kf' hs hov hlen ht hC ih =>
    intro hx off x vs out h
    have hne : p.all ≠ [] := by
      intro h0; exact hs.some (List.append_eq_nil_iff.1 (List.append_eq_nil_iff.1 h0).1).1
    have hx := hx.resolve_left hne
    generalize hdata : p.all ++ b = data at h
    cases h with
    | over _ _ _ _ e h1 =>
      rw [← hdata] at h1
      exact absurd (over_without hx hs hlen ht h1) (hov e)
    | broken _ _ _ p' rec' e h1 h2 h3 h4 h5 =>
      have hp' : p' = p.with b := shows_same (by rw [← hdata, Portion.with_all]) (shows_with hx hs hlen ht b) h1
      subst hp'
      obtain ⟨⟨⟨f, hd, d1, d2, d3, d4, -⟩, -⟩, -⟩ := shows_without hx hs hlen ht h1
      refine absurd (Over.digest e f hd _ hne d1 h3 h4 hcd (.inr fun h => h2 ?_)) (hov e)
      unfold Fields.Usable at h
      unfold Record.Usable
      rw [d3, d4]
      exact h
    | record _ _ _ p' rec' left v line _ vs' out' h1 h2 h3 h4 h5 h5' h6 =>
      have hp' : p' = p.with b := shows_same (by rw [← hdata, Portion.with_all]) (shows_with hx hs hlen ht b) h1
      subst hp'
      obtain ⟨g1, g2, g3⟩ := shows_without hx hs hlen ht h1
      have hte := Portion.tail_ends hx ht
      obtain ⟨r1, r2⟩ := resumed_append hte hb
      have e1 : resumed (p.with b).tail = resumed p.tail ++ b := r1
      have e2 : skipped (p.with b).tail = skipped p.tail := r2
      have e4 : (p.with b).bytes = p.bytes := rfl
      rw [e1, e2, e4, g2] at h6
      obtain ⟨vs1, vs2, out1, out2, i1, i2, i3, i4⟩ := ih (rest_ends hx) h6
      refine ⟨_ :: vs1, vs2, line ++ out1, out2, by rw [i1]; rfl, by rw [i2, List.append_assoc], .record n kf off p rec' left v line _ vs1 out1 g1 (parsed_without hx ht h2) h3 h4 h5 h5' (by rw [g2]; exact i3), ?_⟩
      rw [rest_off, Nat.add_right_comm] at i4
      exact i4

/-- The copies. -/
theorem copied_split {kf' : Option Format} (ha : io.arc2warc = true) (hb : blankLine (takeLine b) = false) {g : Bytes → Bytes} {flt : Str × Str → Option (Str × Str)} {n : Nat} {kf : Option Format} {a : Bytes} {k : Nat} (hC : Complete io m n kf a k kf') :
    kf = none → (a = [] ∨ EndsLine a) → ∀ {x : Except PyErr Unit} {bs : List Bytes}, CopiedParts io g flt m n (a ++ b) x bs →
    (∃ bs1 bs2, bs = bs1 ++ bs2 ∧ CopiedParts io g flt m n a (.ok ()) bs1 ∧ CopiedParts io g flt m (n + k) b x bs2) ∨ (∃ e, x = .error e ∧ CopiedParts io g flt m n a x bs) := by
  induction hC with
  | nil n kf =>
    intro _ _ x bs h
    exact .inl ⟨[], bs, rfl, .over n [] .stopIteration (.empty rfl), h⟩
  | record n kf p rec k kf' hs hov hlen ht hC ih =>
    rintro rfl hx x bs h
    have hne : p.all ≠ [] := by
      intro h0; exact hs.some (List.append_eq_nil_iff.1 (List.append_eq_nil_iff.1 h0).1).1
    have hx := hx.resolve_left hne
    generalize hdata : p.all ++ b = data at h
    cases h with
    | over _ _ e h1 =>
      rw [← hdata] at h1
      exact absurd (over_without hx hs hlen ht h1) (hov e)
    | stuck _ p' rec' left h e h1 h2 h3 h4 =>
      have hp' : p' = p.with b := shows_same (by rw [← hdata, Portion.with_all]) (shows_with hx hs hlen ht b) h1
      subst hp'
      obtain ⟨g1, g2, g3⟩ := shows_without hx hs hlen ht h1
      exact .inr ⟨e, rfl, .stuck n p rec' left h e g1 (parsed_without hx ht h2) h3 h4⟩
    | record _ p' rec' left hb' hs' c _ bs' h1 h2 h3 h4 h5 h6 =>
      have hp' : p' = p.with b := shows_same (by rw [← hdata, Portion.with_all]) (shows_with hx hs hlen ht b) h1
      subst hp'
      obtain ⟨g1, g2, g3⟩ := shows_without hx hs hlen ht h1
      have hte := Portion.tail_ends hx ht
      obtain ⟨r1, r2⟩ := resumed_append hte hb
      have e1 : resumed (p.with b).tail = resumed p.tail ++ b := r1
      rw [e1] at h6
      rcases ih (by rw [ha]; rfl) (rest_ends hx) h6 with ⟨s1, s2, i1, i2, i3⟩ | ⟨e, i1, i2⟩
      · refine .inl ⟨_ :: s1, s2, by rw [i1]; rfl, .record n p rec' left hb' hs' c _ s1 g1 (parsed_without hx ht h2) h3 h4 h5 i2, ?_⟩
        rw [Nat.add_right_comm] at i3
        exact i3
      · exact .inr ⟨e, i1, .record n p rec' left hb' hs' c _ bs' g1 (parsed_without hx ht h2) h3 h4 h5 i2⟩

/-- When there is a record. -/
theorem not_over {m : Nat} {data left : Bytes} {f : HeadFormat} {h : StatusAndHeaders} (hd : detectType o data none = (.ok (f, h), left)) (hl : left ≠ []) (hv : o.verifyHttp = false ∨ (HeadWithin m (declaredPart (blockLength (Loader.fields f h).length (Loader.fields f h).subLen) left) ∧ ¬ BadStatus (Loader.fields f h).recType (lineText (takeLine (declaredPart (blockLength (Loader.fields f h).length (Loader.fields f h).subLen) left))))) (hc : o.checkDigests = none ∨ (o.checkDigests ≠ some .raise ∧ (Loader.fields f h).Usable))
    (hu : ¬ HttpType (Loader.fields f h).recType ∨ (Loader.fields f h).uri ≠ none) (hne : data ≠ []) (e : PyErr) : ¬ Over o m data e := by
  have key : ∀ {f' h' left'}, detectType o data none = (.ok (f', h'), left') → f' = f ∧ h' = h ∧ left' = left := by
    intro f' h' left' h1
    rw [hd] at h1
    simp only [Prod.mk.injEq, Except.ok.injEq] at h1
    obtain ⟨⟨rfl, rfl⟩, rfl⟩ := h1
    exact ⟨rfl, rfl, rfl⟩
  intro ho
  cases ho with
  | empty h0 => exact hne h0
  | head e left _ h1 => rw [hd] at h1; cases h1
  | bare f' h' _ h1 => obtain ⟨-, -, h2⟩ := key h1; exact hl h2.symm
  | digest e f' h' left _ h1 h2 h3 h4 h5 =>
    obtain ⟨rfl, rfl, -⟩ := key h1
    rcases hc with hc | ⟨c1, c2⟩
    · rw [hc] at h4; cases h4
    · exact h5.elim c1 (fun h => h c2)
  | status l f' h' left _ h1 h2 h3 h4 =>
    obtain ⟨rfl, rfl, rfl⟩ := key h1
    rcases hv with hv | ⟨v1, v2⟩
    · rw [hv] at h3; cases h3
    · exact v2 (h4 hc v1).2.2
  | uri f' h' left _ h1 h2 h3 h4 h5 =>
    obtain ⟨rfl, rfl, -⟩ := key h1
    exact hu.elim (fun h => h h3) (fun h => h h4)

end
end Warcio
