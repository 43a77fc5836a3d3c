import Verif.Proofs.Holding
import Verif.Proofs.Base64

/-!
# `ensure_digest`
-/

set_option linter.unusedSectionVars false

namespace Warcio

open Builder Writer

/-- `str` of a SHA-1 digester that was given `d`. -/
def sha1Of (f : Bytes → Bytes) (d : Bytes) : Str := lit "sha1" ++ ':' :: Rfc4648.base32 (f d)

theorem digester_str [Hashlib] {f : Bytes → Bytes} (H : Hashlib.hash (lit "sha1") = some f) (d : Bytes) :
    (({ algo := lit "sha1", data := d } : Digester)).str = sha1Of f d := by
  unfold Digester.str Digester.value sha1Of
  simp only [H]
  rw [b32encode_eq]

theorem foldl_update (d : Digester) (bufs : List Bytes) : bufs.foldl Digester.update d = { d with data := d.data ++ bufs.flatten } := by
  induction bufs generalizing d with
  | nil => simp
  | cons b t ih => simp [ih, Digester.update]

/-- Whether a block digest is computed. -/
def wantBlock [PyUni] {σ} (r : OutRecord σ) : Bool := !Loader.truthy (r.recHeaders.getHeader (lit "WARC-Block-Digest"))

/-- Whether a payload digest is computed. -/
def wantPayload [PyUni] {σ} (r : OutRecord σ) : Bool :=
  !(Loader.truthy (r.recHeaders.getHeader (lit "WARC-Payload-Digest")) || noPayloadDigest r.recType)

/-- The digests that are added. -/
def newDigests (f : Bytes → Bytes) (wp wb : Bool) (hb d : Bytes) : List Header :=
  (if wp then [(lit "WARC-Payload-Digest", sha1Of f d)] else []) ++ (if wb then [(lit "WARC-Block-Digest", sha1Of f (hb ++ d))] else [])

section
variable {σ : Type} [PyUni] [Hashlib] [PyFile σ]

theorem digesterIf_eq {f : Bytes → Bytes} (H : Hashlib.hash (lit "sha1") = some f) (b : Bool) :
    digesterIf b = .ok (if b then some { algo := lit "sha1" } else none) := by
  unfold digesterIf Digester.new
  rw [H]
  cases b <;> rfl

theorem addDigest_eq {f : Bytes → Bytes} (H : Hashlib.hash (lit "sha1") = some f) (n : Str) (b : Bool) (d : Bytes) (h : StatusAndHeaders) :
    addDigest n (if b then some { algo := lit "sha1", data := d } else none) h =
      { h with headers := h.headers ++ (if b then [(n, sha1Of f d)] else []) } := by
  cases b with
  | false => simp [addDigest]
  | true => simp only [if_true, addDigest, digester_str H]; rfl

/-- HTTP headers, if there are any, have their bytes. -/
def Prepared (r : OutRecord σ) : Prop := ∀ h, r.httpHeaders = some h → h.truthy = true → h.headersBuff.getD [] ≠ []

theorem headersForDigest_eq (flt : Header → Option Header) (block : Bool) (r : OutRecord σ) (hp : block = true → Prepared r) :
    headersForDigest flt block r = (.ok (if block then httpBytes r else []), r) := by
  unfold headersForDigest httpBytes
  cases hh : r.httpHeaders with
  | none => cases block <;> rfl
  | some h =>
    cases block with
    | false => rfl
    | true =>
      cases ht : h.truthy with
      | false => simp [ht]
      | true =>
        have := hp rfl h hh ht
        simp [this, ht]

variable [Holding σ]

theorem holds_mem (b : Bytes) : holds (RecStream.mem (σ := σ) { content := b }) b := rfl

/-- The original stream is put aside after it was read to its end, or it is where it was (and if it
cannot be rewound, it was not touched). -/
def Aside (raw0 : RecStream σ) (orig0 : Option (Option (RecStream σ))) (raw : RecStream σ) (orig : Option (Option (RecStream σ))) : Prop :=
  (orig = orig0 ∧ (raw = raw0 ∨ ∃ p s, PyFile.tellE raw0 = .ok p ∧ PyFile.seek raw0 p = .ok s)) ∨
  ∃ bufs s, orig = some (some s) ∧ iterAll raw0 = (bufs, .ok (), s)

theorem ensureDigest_spec {f : Bytes → Bytes} (H : Hashlib.hash (lit "sha1") = some f) (flt : Header → Option Header) (r : OutRecord σ) {d : Bytes}
    (hd : holds r.raw d) (block payload : Bool) (hp : block = true → Prepared r) :
    ∃ raw pl orig, ensureDigest flt r block payload =
        (.ok (), ({ r with raw := raw, payloadLength := pl, orig := orig, recHeaders := { r.recHeaders with headers := r.recHeaders.headers ++ newDigests f (payload && wantPayload r) (block && wantBlock r) (httpBytes r) d } } : OutRecord σ)) ∧
      holds raw d ∧ (pl = r.payloadLength ∨ pl = some (len d)) ∧ (r.length = none → pl = some (len d)) ∧ Aside r.raw r.orig raw orig := by
  unfold ensureDigest
  generalize hwb : (block && !Loader.truthy (r.recHeaders.getHeader (lit "WARC-Block-Digest"))) = wb
  generalize hwp : (payload && !(Loader.truthy (r.recHeaders.getHeader (lit "WARC-Payload-Digest")) || noPayloadDigest r.recType)) = wp
  have hwb' : (block && wantBlock r) = wb := hwb
  have hwp' : (payload && wantPayload r) = wp := hwp
  rw [hwb', hwp']
  have hp' : wb = true → Prepared r := by
    intro h
    apply hp
    cases block with
    | true => rfl
    | false => rw [← hwb] at h; simp at h
  simp only [digesterIf_eq H]
  by_cases hearly : wb = false ∧ wp = false ∧ r.length.isSome = true
  · obtain ⟨rfl, rfl, hl⟩ := hearly
    rw [if_pos (by simp [hl])]
    refine ⟨r.raw, r.payloadLength, r.orig, ?_, hd, .inl rfl, ?_, .inl ⟨rfl, .inl rfl⟩⟩
    · simp [newDigests]
    · intro h; rw [h] at hl; simp at hl
  · rw [if_neg (by
      intro h
      apply hearly
      cases wb <;> cases wp <;> simp_all)]
    cases hst : rewindable r with
    | none =>
      dsimp only
      rw [headersForDigest_eq flt wb r hp']
      dsimp only
      obtain ⟨bufs, s', i1, i2⟩ := Holding.sends hd
      rw [i1]
      dsimp only
      refine ⟨.mem { content := d }, some (len d), some (some s'), ?_, holds_mem d, .inr rfl, fun _ => rfl, .inr ⟨bufs, s', rfl, i1⟩⟩
      rw [i2]
      have e1 : (Option.map (fun d => List.foldl Digester.update d bufs) (if wp = true then some ({ algo := lit "sha1" } : Digester) else none) : Option Digester) =
          if wp then some { algo := lit "sha1", data := d } else none := by
        cases wp <;> simp [foldl_update, i2]
      have e2 : (Option.map (fun d : Digester => List.foldl Digester.update (d.update (if wb = true then httpBytes r else [])) bufs) (if wb = true then some ({ algo := lit "sha1" } : Digester) else none) : Option Digester) =
          if wb then some { algo := lit "sha1", data := httpBytes r ++ d } else none := by
        cases wb <;> simp [foldl_update, i2, Digester.update]
      rw [e1, e2, addDigest_eq H, addDigest_eq H]
      simp [newDigests]
    | some ps =>
      obtain ⟨pos, s⟩ := ps
      have hr : r.length ≠ none ∧ PyFile.tellE r.raw = .ok pos ∧ PyFile.seek r.raw pos = .ok s := by
        unfold rewindable at hst
        split at hst
        · cases hst
        · rename_i n hn
          split at hst
          · cases hst
          · rename_i p hp
            split at hst
            · cases hst
            · rename_i s' hs'
              cases hst
              exact ⟨by rw [hn]; simp, hp, hs'⟩
      obtain ⟨k1, k2⟩ := Holding.rewind hd hr.2.1 hr.2.2
      dsimp only
      have hp2 : wb = true → Prepared ({ r with raw := s } : OutRecord σ) := hp'
      rw [headersForDigest_eq flt wb _ hp2]
      dsimp only
      obtain ⟨bufs, s', i1, i2⟩ := Holding.sends k1
      obtain ⟨s3, m1, m2⟩ := k2 _ _ _ i1
      rw [i1]
      dsimp only
      rw [m1]
      dsimp only
      refine ⟨s3, r.payloadLength, r.orig, ?_, m2, .inl rfl, fun h => absurd h hr.1, .inl ⟨rfl, .inr ⟨pos, s, hr.2⟩⟩⟩
      have e1 : (Option.map (fun d => List.foldl Digester.update d bufs) (if wp = true then some ({ algo := lit "sha1" } : Digester) else none) : Option Digester) =
          if wp then some { algo := lit "sha1", data := d } else none := by
        cases wp <;> simp [foldl_update, i2]
      have e2 : ∀ x : Bytes, (Option.map (fun d : Digester => List.foldl Digester.update (d.update (if wb = true then x else [])) bufs) (if wb = true then some ({ algo := lit "sha1" } : Digester) else none) : Option Digester) =
          if wb then some { algo := lit "sha1", data := x ++ d } else none := by
        intro x
        cases wb <;> simp [foldl_update, i2, Digester.update]
      rw [e1, e2, addDigest_eq H, addDigest_eq H]
      simp [newDigests, httpBytes]

end
end Warcio
