import Verif.Proofs.ErrsIter

/-! Where `AttributeError` comes from (C81). -/

set_option linter.unusedSectionVars false
namespace Warcio
namespace Loader
variable {σ : Type} [PyUni] [PyStream σ]

theorem findHeader_mem {nm v : Str} : ∀ (hs : List Header), (nm, v) ∈ hs → StatusAndHeaders.findHeader nm hs ≠ none
  | [], h => by cases h
  | x :: t, h => by
    unfold StatusAndHeaders.findHeader
    split
    · exact (fun h => by cases h)
    · rename_i hn
      rcases List.mem_cons.1 h with rfl | h
      · exact absurd (by simp [StatusAndHeaders.nameEq]) hn
      · exact findHeader_mem t h

/-- The headers that are made of an ARC line have a URI, or are those of a `warcinfo` record. -/
theorem arcHeaders_uri {o : LoadOpts} {l : Str} {parts : List Str} (hl : parts.length = 5) {hs : List Header} (h : arcHeaders o l parts = .ok hs) (t : Int) :
    let hd : StatusAndHeaders := { statusline := [], headers := hs, protocol := lit "WARC/1.0", totalLen := t }
    if o.arc2warc then hd.getHeader (lit "WARC-Type") = some (lit "warcinfo") ∨ hd.getHeader (lit "WARC-Target-URI") ≠ none
    else hd.getHeader (lit "uri") ≠ none := by
  obtain ⟨a, parts, rfl⟩ : ∃ a t, parts = a :: t := by cases parts with
    | nil => cases hl
    | cons a t => exact ⟨a, t, rfl⟩
  unfold arcHeaders at h
  split
  · rename_i ho
    rw [if_pos ho] at h
    dsimp only at h
    split at h
    · rename_i hs' hc
      cases h
      by_cases hi : isFiledesc l = true
      · left
        show StatusAndHeaders.findHeader _ _ = _
        unfold StatusAndHeaders.findHeader
        rw [if_pos (by simp [StatusAndHeaders.nameEq]), if_pos hi]
      · right
        refine findHeader_mem (v := a) _ (List.mem_cons_of_mem _ (List.mem_cons_of_mem _ ?_))
        rw [if_neg hi] at hc
        have hi' : isFiledesc l = false := by simpa using hi
        rw [hi'] at hc
        unfold convertFields arcToWarcNames at hc
        rw [List.set_cons_succ, List.zip_cons_cons] at hc
        dsimp only at hc
        rw [if_neg (by decide)] at hc
        dsimp only at hc
        split at hc
        · cases hc
          exact List.mem_cons_self ..
        · cases hc
    · cases h
  · rename_i ho
    rw [if_neg ho] at h
    cases h
    exact findHeader_mem (v := a) _ (List.mem_cons_self ..)

theorem parseArc_uri {o : LoadOpts} {s s' : σ} {line : Option Line} {h : StatusAndHeaders} (hp : parseArc o s line = (.ok h, s')) :
    if o.arc2warc then h.getHeader (lit "WARC-Type") = some (lit "warcinfo") ∨ h.getHeader (lit "WARC-Target-URI") ≠ none else h.getHeader (lit "uri") ≠ none := by
  have key : ∀ {full : Str} {s : σ}, parseArcFrom o full s = (.ok h, s') →
      if o.arc2warc then h.getHeader (lit "WARC-Type") = some (lit "warcinfo") ∨ h.getHeader (lit "WARC-Target-URI") ≠ none else h.getHeader (lit "uri") ≠ none := by
    intro full s hp
    unfold parseArcFrom at hp
    split at hp
    · cases hp
    · dsimp only at hp
      split at hp
      · cases hp
      · split at hp
        · cases hp
        · rename_i hl
          split at hp
          · cases hp
          · rename_i ha
            have := arcHeaders_uri (Classical.not_not.1 hl) ha
            cases hp; exact this _
  unfold parseArc at hp
  split at hp
  · exact key hp
  · split at hp
    · exact key hp
    · cases hp

/-- A record of a type with HTTP headers and no URI is one of a WARC file. -/
theorem detect_noUri {o : LoadOpts} {s s' : σ} {line : Option Line} {f : HeadFormat} {h : StatusAndHeaders} (hp : detectType o s line = (.ok (f, h), s'))
    (hu : (fields f h).uri = none) {t : Str} (ht : (fields f h).recType = some t) (hc : httpRecords.contains t = true) :
    f = .warc ∧ h.getHeader (lit "WARC-Target-URI") = none ∧ h.getHeader (lit "WARC-Type") = some t := by
  have hw : f ≠ .arc → h.getHeader (lit "WARC-Target-URI") = none ∧ h.getHeader (lit "WARC-Type") = some t := by
    intro hf
    unfold fields at hu ht
    rw [if_neg hf] at hu ht
    refine ⟨?_, ht⟩
    have hu : (ensureTargetUri h).1 = none := hu
    unfold ensureTargetUri at hu
    split at hu
    · assumption
    · split at hu
      dsimp only at hu
      split at hu <;> cases hu
  have key : ∀ {s : σ} {line : Option Line}, detectArc o s line = (.ok (f, h), s') → False := by
    intro s line hp
    unfold detectArc at hp
    split at hp
    · rename_i hk
      have := parseArc_uri hk
      cases hp
      by_cases ho : o.arc2warc = true
      · rw [if_pos ho] at this hw
        obtain ⟨h1, h2⟩ := hw (by decide)
        rcases this with h | h
        · rw [h2] at h
          cases h
          exact absurd hc (by decide)
        · exact h h1
      · rw [if_neg ho] at this hu
        exact this hu
    · cases hp
    · cases hp
  unfold detectType at hp
  split at hp
  · exact (key hp).elim
  · split at hp
    · cases hp
      exact ⟨rfl, hw (by decide)⟩
    · split at hp
      · cases hp
      · exact (key hp).elim
    · cases hp
end Loader
end Warcio
