import Verif.Proofs.OpenArchive

/-!
# Consequences of `Yields`

Positions of single results, and when two iterations look the same.
-/

set_option linter.unusedSectionVars false

namespace Warcio

theorem Yields.get {last : PyErr} {e : Expected} : ∀ {pre post : List Expected} {plan : List (List UserOp)} {steps : List Step},
    Yields last (pre ++ e :: post) plan steps → ∀ {ops : List UserOp}, plan[pre.length]? = some ops →
    ∃ rec left vs, steps[pre.length]? = some (.ok (some rec, vs)) ∧ e.shows rec left ∧ OpsOk e false left ops vs := by
  intro pre
  induction pre with
  | nil =>
    intro post plan steps h ops hp
    cases h with
    | enough => simp at hp
    | record e es ops' plan steps rec left vs h1 h2 h3 =>
      simp only [List.length_nil, List.getElem?_cons_zero, Option.some.injEq] at hp
      subst hp
      exact ⟨rec, left, vs, rfl, h1, h2⟩
  | cons x pre ih =>
    intro post plan steps h ops hp
    cases h with
    | enough => simp at hp
    | record e es ops' plan steps rec left vs h1 h2 h3 =>
      exact ih h3 (by simpa using hp)

theorem Yields.length {last : PyErr} {es : List Expected} {plan : List (List UserOp)} {steps : List Step} (h : Yields last es plan steps) :
    steps.length = plan.length := by
  induction h with
  | enough => rfl
  | stop => simp
  | record _ _ _ _ _ _ _ _ _ _ _ ih => simp [ih]

theorem OpsOk.offset_at {e : Expected} {ended : Bool} {left : Bytes} {ops : List UserOp} {vs : List (Except PyErr UserVal)}
    (h : OpsOk e ended left ops vs) (j : Nat) :
    (ops[j]? = some .offset → vs[j]? = some (.ok (.int e.off))) ∧ (ops[j]? = some .size → vs[j]? = some (.ok (.int e.size))) := by
  induction h generalizing j with
  | nil => simp
  | call _ c p left ops vs _ _ _ _ ih | offset _ left ops vs _ ih | size _ left ops vs _ ih | toEnd _ left ops vs _ ih | errors _ left ops vs _ ih =>
    cases j with
    | zero => simp
    | succ j => simpa using ih j

/-- `read` calls have only one right result. -/
theorem OpsOk.det {e e' : Expected} {ended : Bool} {left : Bytes} {ops : List UserOp} {vs vs' : List (Except PyErr UserVal)}
    (h : OpsOk e ended left ops vs) (h' : OpsOk e' ended left ops vs') (hx : ∀ o ∈ ops, o.exact) (hw : ∀ b, e.warned b = e'.warned b)
    (hp : (e.off = e'.off ∧ e.size = e'.size) ∨ ∀ o ∈ ops, o.placeless) : vs = vs' := by
  induction h generalizing vs' with
  | nil => cases h'; rfl
  | call ended c p left ops vs h1 h2 h3 h4 ih =>
    generalize hl : p ++ left = l at h' h1
    cases h' with
    | call _ _ p' left' _ vs' k1 k2 k3 k4 =>
      cases c with
      | readline n => exact absurd (hx (.call (.readline n)) (by simp)) (fun h => h)
      | read n =>
        have e1 := h1 n rfl
        have e2 := k1 n rfl
        have e3 : p = p' := e1.trans e2.symm
        subst e3
        have e4 : left = left' := List.append_cancel_left hl
        subst e4
        rw [ih k4 (fun o ho => hx o (by simp [ho])) (hp.imp id (fun hp o ho => hp o (by simp [ho])))]
  | offset ended left ops vs h1 ih =>
    cases h' with
    | offset _ _ _ _ k1 =>
      rw [ih k1 (fun o ho => hx o (by simp [ho])) (hp.imp id (fun hp o ho => hp o (by simp [ho])))]
      rcases hp with ⟨e1, e2⟩ | hp
      · simp only [e1, e2]
      · exact absurd (hp .offset (by simp)) (fun h => h)
  | size ended left ops vs h1 ih =>
    cases h' with
    | size _ _ _ _ k1 =>
      rw [ih k1 (fun o ho => hx o (by simp [ho])) (hp.imp id (fun hp o ho => hp o (by simp [ho])))]
      rcases hp with ⟨e1, e2⟩ | hp
      · simp only [e1, e2]
      · exact absurd (hp .size (by simp)) (fun h => h)
  | toEnd ended left ops vs h1 ih =>
    cases h' with
    | toEnd _ _ _ _ k1 => rw [ih k1 (fun o ho => hx o (by simp [ho])) (hp.imp id (fun hp o ho => hp o (by simp [ho])))]
  | errors ended left ops vs h1 ih =>
    cases h' with
    | errors _ _ _ _ k1 => rw [hw, ih k1 (fun o ho => hx o (by simp [ho])) (hp.imp id (fun hp o ho => hp o (by simp [ho])))]

/-- Two expectations that no one can tell apart, but perhaps for positions (`P`). -/
def Alike (P : Prop) (e e' : Expected) : Prop :=
  (∀ rec left rec' left', e.shows rec left → e'.shows rec' left' → rec.seen = rec'.seen ∧ left = left') ∧
  (P → e.off = e'.off ∧ e.size = e'.size) ∧ ∀ b, e.warned b = e'.warned b

/-- Element by element. -/
def AllAlike (P : Prop) : List Expected → List Expected → Prop
  | [], [] => True
  | e :: es, e' :: es' => Alike P e e' ∧ AllAlike P es es'
  | _, _ => False

/-- Two iterations over alike records: the same records, and the same results where the same
operations are performed. -/
theorem Yields.same {P : Prop} {last : PyErr} : ∀ {es es' : List Expected} {plan plan' : List (List UserOp)} {steps steps' : List Step},
    Yields last es plan steps → Yields last es' plan' steps' → AllAlike P es es' → ∀ (i : Nat) {ops ops' : List UserOp},
    plan[i]? = some ops → plan'[i]? = some ops' →
    (steps[i]?).map Step.record = (steps'[i]?).map Step.record ∧
    (ops = ops' → (∀ o ∈ ops, o.exact) → (P ∨ ∀ o ∈ ops, o.placeless) → (steps[i]?).map Step.seen = (steps'[i]?).map Step.seen) := by
  intro es
  induction es with
  | nil =>
    intro es' plan plan' steps steps' h h' ha i ops ops' hp hp'
    cases es' with
    | cons => exact ha.elim
    | nil =>
      cases h with
      | enough => simp at hp
      | stop o p =>
        cases h' with
        | enough => simp at hp'
        | stop o' p' =>
          have : ∀ (o : List UserOp) (p : List (List UserOp)), (o :: p)[i]? ≠ none →
              ((Except.error last : Step) :: p.map (fun _ => .error .stopIteration))[i]? =
                some (.error (if i = 0 then last else .stopIteration)) := by
            intro o p h
            cases i with
            | zero => rfl
            | succ i =>
              simp only [List.getElem?_cons_succ, List.getElem?_map] at h ⊢
              cases hx : p[i]? with
              | none => exact absurd hx h
              | some x => simp
          rw [this o p (by rw [hp]; simp), this o' p' (by rw [hp']; simp)]
          exact ⟨rfl, fun _ _ _ => rfl⟩
  | cons e es ih =>
    intro es' plan plan' steps steps' h h' ha i ops ops' hp hp'
    cases es' with
    | nil => exact ha.elim
    | cons e' es' =>
      cases h with
      | enough => simp at hp
      | record _ _ o p steps rec left vs h1 h2 h3 =>
        cases h' with
        | enough => simp at hp'
        | record _ _ o' p' steps' rec' left' vs' k1 k2 k3 =>
          obtain ⟨⟨a1, a2, a4⟩, a3⟩ := ha
          cases i with
          | succ i => simpa using ih h3 k3 a3 i (by simpa using hp) (by simpa using hp')
          | zero =>
            simp only [List.getElem?_cons_zero, Option.some.injEq] at hp hp'
            subst hp hp'
            obtain ⟨b1, b2⟩ := a1 rec left rec' left' h1 k1
            refine ⟨by simp [Step.record, Except.map, b1], ?_⟩
            intro ho hx hpl
            subst ho b2
            rw [← h2.det k2 hx a4 (hpl.imp a2 id)] at *
            simp [Step.seen, Except.map, b1]

namespace WarcRecord
variable [PyUni]

theorem versionLine_unique {data : Bytes} {p q r s : Str} (h1 : VersionLine data p r) (h2 : VersionLine data q s) : p = q ∧ r = s := by
  obtain ⟨a1, a2, a3⟩ := h1
  obtain ⟨b1, b2, b3⟩ := h2
  have : p = q := by
    have key : ∀ x ∈ [lit "WARC/1.1", lit "WARC/1.0", lit "WARC/0.17", lit "WARC/0.18"],
        ∀ y ∈ [lit "WARC/1.1", lit "WARC/1.0", lit "WARC/0.17", lit "WARC/0.18"], x <+: y → x = y := by decide
    rcases List.prefix_or_prefix_of_prefix a2 b2 with h | h
    · exact key p a1 q b1 h
    · exact (key q b1 p a1 h).symm
  subst this
  exact ⟨rfl, by rw [a3, b3]⟩

theorem Settled.det {w : WarcRecord} {io : IterOpts} {m : Nat} (hs : w.Settled io m) {rec rec' : Record Unit} {left left' : Bytes}
    (h : w.Shows io m rec left) (h' : w.Shows io m rec' left') : rec.seen = rec'.seen ∧ left = left' := by
  obtain ⟨v1, v2⟩ := versionLine_unique h.version h'.version
  have e1 := (h.headers hs.uri).trans (h'.headers hs.uri).symm
  have e2 := h.format.trans h'.format.symm
  have e3 := h.recType.trans h'.recType.symm
  have e4 := h.contentType.trans h'.contentType.symm
  have e5 := h.length.trans h'.length.symm
  rcases hs.http with ⟨hc, he⟩ | ⟨hc1, hc2, hc3, hc4, hc5⟩
  · obtain ⟨a1, a2, a3⟩ := h.block hc
    obtain ⟨b1, b2, b3⟩ := h'.block hc
    refine ⟨?_, by rw [a1, b1]⟩
    unfold Record.seen
    rw [v1, v2, e1, e2, e3, e4, e5, a2, b2, a3 he, b3 he]
  · obtain ⟨x, a1, a2⟩ := h.http hc1 hc2 hc3 hc4
    obtain ⟨y, b1, b2⟩ := h'.http hc1 hc2 hc3 hc4
    obtain ⟨a3, a4⟩ := a2 (hc5 _ _ a1)
    obtain ⟨b3, b4⟩ := b2 (hc5 _ _ b1)
    have e6 : left = left' := by rw [a1.left, b1.left]
    have e7 : x.protocol = y.protocol := by rw [a1.protocol, b1.protocol]
    have e8 : x.statusline = y.statusline := by rw [a1.status, b1.status]
    have e9 : x.headers = y.headers := by rw [a1.headers, b1.headers]
    subst e6
    refine ⟨?_, rfl⟩
    unfold Record.seen
    rw [v1, v2, e1, e2, e3, e4, e5, a3, b3, a4, b4]
    simp [e7, e8, e9]

variable [Hashlib]

theorem alike_placed {io : IterOpts} {m : Nat} : ∀ (ws : List WarcRecord) (off : Int), (∀ w ∈ ws, w.Settled io m) →
    AllAlike True (placed io m off ws) (placed io m off ws)
  | [], _, _ => trivial
  | w :: ws, off, h => ⟨⟨fun _ _ _ _ h1 h2 => (h w (by simp)).det h1 h2, fun _ => ⟨rfl, rfl⟩, fun _ => rfl⟩,
      alike_placed ws _ (fun w hw => h w (by simp [hw]))⟩

theorem alike_placedGz {io : IterOpts} {m : Nat} : ∀ (ws : List (Bytes × WarcRecord)) (off : Int), (∀ x ∈ ws, x.2.Settled io m) →
    AllAlike True (placedGz io m off ws) (placedGz io m off ws)
  | [], _, _ => trivial
  | (z, w) :: ws, off, h => ⟨⟨fun _ _ _ _ h1 h2 => (h (z, w) (by simp)).det h1 h2, fun _ => ⟨rfl, rfl⟩, fun _ => rfl⟩,
      alike_placedGz ws _ (fun w hw => h w (by simp [hw]))⟩

/-- Compressed and uncompressed archives, but for positions. -/
theorem alike_mixed {io : IterOpts} {m : Nat} : ∀ (ws : List (Bytes × WarcRecord)) (off off' : Int), (∀ x ∈ ws, x.2.Settled io m) →
    AllAlike False (placedGz io m off ws) (placed io m off' (ws.map (·.2)))
  | [], _, _, _ => trivial
  | (z, w) :: ws, off, off', h => ⟨⟨fun _ _ _ _ h1 h2 => (h (z, w) (by simp)).det h1 h2, fun h => h.elim, fun _ => rfl⟩,
      alike_mixed ws _ _ (fun w hw => h w (by simp [hw]))⟩

theorem placed_append {io : IterOpts} {m : Nat} : ∀ (us vs : List WarcRecord) (off : Int),
    placed io m off (us ++ vs) = placed io m off us ++ placed io m (off + len (us.flatMap bytes)) vs
  | [], vs, off => by simp [placed, len]
  | u :: us, vs, off => by
    simp only [List.cons_append, placed, placed_append us vs, List.flatMap_cons, len, List.length_append]
    congr 3
    omega

theorem placed_length {io : IterOpts} {m : Nat} : ∀ (ws : List WarcRecord) (off : Int), (placed io m off ws).length = ws.length
  | [], _ => rfl
  | _ :: ws, _ => by simp [placed, placed_length ws]

theorem placedGz_append {io : IterOpts} {m : Nat} : ∀ (us vs : List (Bytes × WarcRecord)) (off : Int),
    placedGz io m off (us ++ vs) = placedGz io m off us ++ placedGz io m (off + len (us.flatMap (·.1))) vs
  | [], vs, off => by simp [placedGz, len]
  | (z, u) :: us, vs, off => by
    simp only [List.cons_append, placedGz, placedGz_append us vs, List.flatMap_cons, len, List.length_append]
    congr 3
    omega

theorem placedGz_length {io : IterOpts} {m : Nat} : ∀ (ws : List (Bytes × WarcRecord)) (off : Int), (placedGz io m off ws).length = ws.length
  | [], _ => rfl
  | (_, _) :: ws, _ => by simp [placedGz, placedGz_length ws]

/-- A part of the record that is not empty starts with something that is not white. -/
theorem Good.starts_prefix {w : WarcRecord} (h : w.Good) {t : Bytes} (ht : t <+: w.bytes) : ArchiveIter.Starts t := by
  cases t with
  | nil => exact .inl rfl
  | cons b t =>
    right
    intro hc
    have hb : isByteSpace b = true := by
      have hw : ∀ x ∈ takeLine (b :: t), isByteSpace x = true := (rdropWhile_eq_nil _).1 hc
      exact hw b (by rw [takeLine]; split <;> simp)
    obtain ⟨h1, h2⟩ := isSpace_of_byte hb
    obtain ⟨v, hv, hp⟩ := (h.head (w.block ++ w.sep)).version
    rw [← List.append_assoc, show w.head ++ w.block ++ w.sep = w.bytes from rfl] at hp
    obtain ⟨u, hu⟩ := ht
    rw [← hu, List.cons_append] at hp
    have htl : ∃ r, takeLine (b :: (t ++ u)) = b :: r := by
      rw [takeLine]; split <;> exact ⟨_, rfl⟩
    obtain ⟨r, hr⟩ := htl
    obtain ⟨s, hs⟩ := decode_first b r h1
    unfold lineText at hp
    rw [hr, hs] at hp
    have hv' : ∃ x, v = 'W' :: x := by
      simp only [List.mem_cons, List.not_mem_nil, or_false] at hv
      rcases hv with rfl | rfl | rfl | rfl <;> exact ⟨_, rfl⟩
    obtain ⟨x, rfl⟩ := hv'
    cases hx : rstrip (Char.ofNat b.toNat :: s) with
    | nil => rw [hx, Loader.upper_nil] at hp; simp at hp
    | cons c s' =>
      obtain ⟨q, hq⟩ : rstrip (Char.ofNat b.toNat :: s) <+: Char.ofNat b.toNat :: s := rdropWhile_prefix _ _
      rw [hx] at hq hp
      simp only [List.cons_append, List.cons.injEq] at hq
      have e : c :: s' = [c] ++ s' := rfl
      have hasc : isAscii [c] = true := by
        rw [hq.1]
        simp only [isAscii, List.all_cons, List.all_nil, Bool.and_true, decide_eq_true_eq]
        rw [toNat_charOfNat (by omega)]; exact h1
      rw [e, PyUni.upper_append, PyUni.upper_ascii _ hasc] at hp
      have h3 : 'W' = c.toUpper := (List.cons_prefix_cons.1 hp).1
      rw [hq.1] at h3
      have h4 : ∀ n < 128, isSpace (Char.ofNat n) = true → 'W' ≠ (Char.ofNat n).toUpper := by decide +kernel
      exact h4 _ h1 h2 h3

end WarcRecord
end Warcio
