import Verif.Proofs.Write
import Verif.Proofs.LoadRecord

/-!
# The headers that are written
-/

set_option linter.unusedSectionVars false

namespace Warcio

open StatusAndHeaders Builder Writer Loader

section
variable [PyUni]

theorem lastValue_eq (n : Str) (hs : List Header) : lastValue n hs = findHeader n hs.reverse := firstValue_eq n _

theorem lastValue_append (n : Str) (a b : List Header) : lastValue n (a ++ b) = (lastValue n b).or (lastValue n a) := by
  rw [lastValue_eq, lastValue_eq, lastValue_eq, List.reverse_append, findHeader_append]

theorem lastValue_none {n : Str} {hs : List Header} : lastValue n hs = none ↔ ∀ h ∈ hs, nameEq n h = false := by
  rw [lastValue_eq, findHeader_none]
  simp

theorem lastValue_one {n : Str} {x : Header} (h : nameEq n x = true) : lastValue n [x] = some x.2 := by
  rw [lastValue_eq]; simp [findHeader, h]

theorem lastValue_other {n : Str} {x : Header} (h : nameEq n x = false) : lastValue n [x] = none := by
  rw [lastValue_eq]; simp [findHeader, h]

theorem lastValue_cons (n : Str) (x : Header) (t : List Header) : lastValue n (x :: t) = (lastValue n t).or (lastValue n [x]) := by
  rw [show x :: t = [x] ++ t from rfl, lastValue_append]

theorem lastValue_replace_self (n v : Str) (hs : List Header) : lastValue n (replaceIn hs n v).2 = some v := by
  rcases last_match n hs with h0 | ⟨pre, x, post, rfl, h1, h2⟩
  · rw [replaceIn_none h0, lastValue_append, lastValue_one (nameEq_self n v)]
    rfl
  · rw [replaceIn_some h1 h2, lastValue_append, lastValue_cons, lastValue_none.2 h2, lastValue_one (x := (x.1, v)) h1]
    rfl

theorem lastValue_replace_other {n m : Str} (h : PyUni.lower n ≠ PyUni.lower m) (hs : List Header) (v : Str) :
    lastValue m (replaceIn hs n v).2 = lastValue m hs := by
  rcases last_match n hs with h0 | ⟨pre, x, post, rfl, h1, h2⟩
  · rw [replaceIn_none h0, lastValue_append, lastValue_other (nameEq_other h (nameEq_self n v))]
    rfl
  · rw [replaceIn_some h1 h2, lastValue_append, lastValue_append, lastValue_cons m (x.1, v), lastValue_cons m x]
    rw [lastValue_other (nameEq_other h h1), lastValue_other (x := (x.1, v)) (nameEq_other h (show nameEq n (x.1, v) = true from h1))]

/-- If at most one header has the name, the first one is the last one. -/
theorem first_last {n : Str} {hs : List Header} (h : AtMostOne n hs) : firstValue n hs = lastValue n hs := by
  rw [firstValue_eq]
  rcases last_match n hs with h0 | ⟨pre, x, post, rfl, h1, h2⟩
  · rw [lastValue_none.2 h0, findHeader_none.2 h0]
  · have hpre : ∀ y ∈ pre, nameEq n y = false := by
      intro y hy
      have h : ((pre ++ x :: post).filter (nameEq n)).length ≤ 1 := h
      rw [List.filter_append, List.filter_cons, if_pos h1] at h
      simp only [List.length_append, List.length_cons] at h
      have h0 : (pre.filter (nameEq n)).length = 0 := by omega
      cases hb : nameEq n y with
      | false => rfl
      | true =>
        have hm : y ∈ pre.filter (nameEq n) := List.mem_filter.2 ⟨hy, hb⟩
        rw [List.length_eq_zero_iff.1 h0] at hm
        cases hm
    rw [findHeader_append, findHeader_none.2 hpre, lastValue_append, lastValue_cons, lastValue_none.2 h2, lastValue_one h1]
    simp [findHeader, h1]

/-- A test that looks at names only, and fails for `n`. -/
def Passes (n : Str) (p : Header → Bool) : Prop := ∀ x : Header, nameEq n x = true → p x = false

theorem filter_replace_passes {n : Str} {p : Header → Bool} (hp : Passes n p) (hs : List Header) (v : Str) :
    (replaceIn hs n v).2.filter p = hs.filter p := by
  rcases last_match n hs with h0 | ⟨pre, x, post, rfl, h1, h2⟩
  · rw [replaceIn_none h0, List.filter_append, List.filter_cons, hp _ (nameEq_self n v)]
    simp
  · rw [replaceIn_some h1 h2, List.filter_append, List.filter_append, List.filter_cons, List.filter_cons, hp x h1, hp (x.1, v) h1]
    rfl

theorem filter_remove_passes {n : Str} {p : Header → Bool} (hp : Passes n p) (hs : List Header) :
    (removeIn hs n).2.filter p = hs.filter p := by
  rcases last_match n hs with h0 | ⟨pre, x, post, rfl, h1, h2⟩
  · rw [removeIn_none h0]
  · rw [removeIn_some h1 h2, List.filter_append, List.filter_append, List.filter_cons, hp x h1]
    rfl

theorem passes_other {n m : Str} (h : PyUni.lower n ≠ PyUni.lower m) : Passes n (nameEq m) := fun _ hx => nameEq_other h hx

theorem passes_without {n : Str} {ns : List Str} (h : n ∈ ns) : Passes n (fun x => ns.all (fun m => PyUni.lower x.1 != PyUni.lower m)) := by
  intro x hx
  rw [List.all_eq_false]
  refine ⟨n, h, ?_⟩
  have : PyUni.lower x.1 = PyUni.lower n := by simpa [nameEq] using hx
  simp [this]

theorem filter_remove_self {n : Str} {hs : List Header} (h : AtMostOne n hs) : (removeIn hs n).2.filter (nameEq n) = [] := by
  rw [List.filter_eq_nil_iff]
  intro x hx
  rw [findHeader_none.1 (findHeader_remove_self h) x hx]
  simp

theorem filter_nil_iff {n : Str} {hs : List Header} : hs.filter (nameEq n) = [] ↔ findHeader n hs = none := by
  rw [List.filter_eq_nil_iff, findHeader_none]
  simp

theorem findHeader_filter (n : Str) (hs : List Header) : findHeader n hs = ((hs.filter (nameEq n)).head?).map (·.2) := by
  induction hs with
  | nil => rfl
  | cons a t ih =>
    rw [findHeader, List.filter_cons]
    cases nameEq n a with
    | true => simp
    | false => simp [ih]

theorem differ {a b : Str} (ha : isAscii a = true) (hb : isAscii b = true) (h : a.map Char.toLower ≠ b.map Char.toLower) :
    PyUni.lower a ≠ PyUni.lower b := by
  rw [PyUni.lower_ascii _ ha, PyUni.lower_ascii _ hb]; exact h

/-- Names used by the writer are different. -/
theorem names_differ : PyUni.lower (lit "Content-Length") ≠ PyUni.lower (lit "Content-Type") ∧ PyUni.lower (lit "Content-Length") ≠ PyUni.lower (lit "WARC-Block-Digest") ∧
    PyUni.lower (lit "Content-Length") ≠ PyUni.lower (lit "WARC-Payload-Digest") ∧ PyUni.lower (lit "Content-Type") ≠ PyUni.lower (lit "WARC-Block-Digest") ∧
    PyUni.lower (lit "Content-Type") ≠ PyUni.lower (lit "WARC-Payload-Digest") ∧ PyUni.lower (lit "WARC-Block-Digest") ≠ PyUni.lower (lit "WARC-Payload-Digest") :=
  ⟨differ (by decide) (by decide) (by decide), differ (by decide) (by decide) (by decide), differ (by decide) (by decide) (by decide),
    differ (by decide) (by decide) (by decide), differ (by decide) (by decide) (by decide), differ (by decide) (by decide) (by decide)⟩

end

section
variable [PyUni] {σ : Type} (f : Bytes → Bytes) (r : OutRecord σ) (hb d : Bytes)

theorem typed_passes {p : Header → Bool} (hp : Passes (lit "Content-Type") p) (ct : Option Str) (hs : List Header) :
    (typedHeaders ct hs).filter p = hs.filter p := by
  unfold typedHeaders
  split
  · exact filter_replace_passes hp _ _
  · rfl

theorem base_passes {p : Header → Bool} (h1 : Passes (lit "WARC-Block-Digest") p) (h2 : Passes (lit "WARC-Payload-Digest") p) (h3 : Passes (lit "Content-Type") p) :
    (baseHeaders r).filter p = r.recHeaders.headers.filter p := by
  unfold baseHeaders
  split
  · rfl
  · dsimp only
    rw [filter_remove_passes h3]
    split
    · rw [filter_remove_passes h1]
    · rw [filter_remove_passes h2, filter_remove_passes h1]

theorem newDigests_passes {p : Header → Bool} (h1 : Passes (lit "WARC-Block-Digest") p) (h2 : Passes (lit "WARC-Payload-Digest") p) (wp wb : Bool) :
    (newDigests f wp wb hb d).filter p = [] := by
  have e1 := h1 _ (nameEq_self (lit "WARC-Block-Digest") (sha1Of f (hb ++ d)))
  have e2 := h2 _ (nameEq_self (lit "WARC-Payload-Digest") (sha1Of f d))
  unfold newDigests
  cases wp <;> cases wb <;> simp [e1, e2]

theorem written_passes {p : Header → Bool} (h0 : Passes (lit "Content-Length") p) (h1 : Passes (lit "WARC-Block-Digest") p)
    (h2 : Passes (lit "WARC-Payload-Digest") p) (h3 : Passes (lit "Content-Type") p) :
    (writtenHeaders f r hb d).filter p = r.recHeaders.headers.filter p := by
  unfold writtenHeaders digestedHeaders
  rw [filter_replace_passes h0, typed_passes h3, List.filter_append, newDigests_passes f hb d h1 h2, List.append_nil, base_passes r h1 h2 h3]

theorem written_without : without ownNames (writtenHeaders f r hb d) = without ownNames r.recHeaders.headers :=
  written_passes f r hb d (passes_without (by simp [ownNames])) (passes_without (by simp [ownNames])) (passes_without (by simp [ownNames]))
    (passes_without (by simp [ownNames]))

theorem written_length : lastValue (lit "Content-Length") (writtenHeaders f r hb d) = some (intToStr (len (blockOf r hb d))) :=
  lastValue_replace_self _ _ _

theorem written_type {t : Str} (h : r.contentType = some t) : lastValue (lit "Content-Type") (writtenHeaders f r hb d) = some t := by
  unfold writtenHeaders typedHeaders
  rw [lastValue_replace_other names_differ.1, h]
  exact lastValue_replace_self _ _ _

theorem written_one_length (h : AtMostOne (lit "Content-Length") r.recHeaders.headers) : AtMostOne (lit "Content-Length") (writtenHeaders f r hb d) := by
  obtain ⟨n1, n2, n3, n4, n5, n6⟩ := names_differ
  unfold writtenHeaders
  refine filter_replace_self ?_ _
  rw [typed_passes (passes_other n1.symm)]
  unfold digestedHeaders
  rw [List.filter_append, newDigests_passes f hb d (passes_other n2.symm) (passes_other n3.symm), List.append_nil,
    base_passes r (passes_other n2.symm) (passes_other n3.symm) (passes_other n1.symm)]
  exact h

/-- Digest headers in the headers that are written. -/
theorem written_digests {m : Str} (hm : m = lit "WARC-Block-Digest" ∨ m = lit "WARC-Payload-Digest") :
    (writtenHeaders f r hb d).filter (nameEq m) = (digestedHeaders f r hb d).filter (nameEq m) := by
  obtain ⟨n1, n2, n3, n4, n5, n6⟩ := names_differ
  unfold writtenHeaders
  rcases hm with rfl | rfl
  · rw [filter_replace_passes (passes_other n2), typed_passes (passes_other n4)]
  · rw [filter_replace_passes (passes_other n3), typed_passes (passes_other n5)]

theorem block_digests : (digestedHeaders f r hb d).filter (nameEq (lit "WARC-Block-Digest")) =
    (baseHeaders r).filter (nameEq (lit "WARC-Block-Digest")) ++
      (if Loader.truthy (findHeader (lit "WARC-Block-Digest") (baseHeaders r)) then [] else [(lit "WARC-Block-Digest", sha1Of f (hb ++ d))]) := by
  have e1 := nameEq_self (lit "WARC-Block-Digest") (sha1Of f (hb ++ d))
  have e2 := nameEq_other names_differ.2.2.2.2.2.symm (nameEq_self (lit "WARC-Payload-Digest") (sha1Of f d))
  unfold digestedHeaders
  rw [List.filter_append]
  congr 1
  generalize (!(Loader.truthy (findHeader (lit "WARC-Payload-Digest") (baseHeaders r)) || noPayloadDigest r.recType)) = wp
  unfold newDigests
  cases wp <;> cases Loader.truthy (findHeader (lit "WARC-Block-Digest") (baseHeaders r)) <;> simp [e1, e2]

theorem payload_digests : (digestedHeaders f r hb d).filter (nameEq (lit "WARC-Payload-Digest")) =
    (baseHeaders r).filter (nameEq (lit "WARC-Payload-Digest")) ++
      (if Loader.truthy (findHeader (lit "WARC-Payload-Digest") (baseHeaders r)) || noPayloadDigest r.recType then [] else [(lit "WARC-Payload-Digest", sha1Of f d)]) := by
  have e1 := nameEq_other names_differ.2.2.2.2.2 (nameEq_self (lit "WARC-Block-Digest") (sha1Of f (hb ++ d)))
  have e2 := nameEq_self (lit "WARC-Payload-Digest") (sha1Of f d)
  unfold digestedHeaders
  rw [List.filter_append]
  congr 1
  generalize Loader.truthy (findHeader (lit "WARC-Block-Digest") (baseHeaders r)) = wb
  unfold newDigests
  cases wb <;> cases (Loader.truthy (findHeader (lit "WARC-Payload-Digest") (baseHeaders r)) || noPayloadDigest r.recType) <;> simp [e1, e2]

end
end Warcio
