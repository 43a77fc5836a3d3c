import Verif.Spec.ArcRewrite
import Verif.Proofs.ArcItems
import Verif.Proofs.Rewrite

/-!
# ARC records written as WARC records
-/

set_option linter.unusedSectionVars false

namespace Warcio

open Loader StatusAndHeaders Builder Writer

namespace ArcRecord
variable [PyUni] [Hashlib]

theorem value_of {a : ArcRecord} {id iso : Str} {n : Str} (hn : isAscii n = true) : (a.asWarc id iso).value n = Props.findAscii n (a.converted id iso) := by
  show firstValue n (a.converted id iso) = _
  rw [firstValue_eq]
  refine Props.findAscii_eq hn _ ?_
  rw [← converted_eq]; exact Props.converted_ascii _ _ _ _ _ _

theorem value_type (a : ArcRecord) (id iso : Str) : (a.asWarc id iso).value (lit "WARC-Type") = some (if a.Describes then lit "warcinfo" else lit "response") := by
  rw [value_of (by decide)]; rfl

theorem value_uri (a : ArcRecord) (id iso : Str) : (a.asWarc id iso).value (lit "WARC-Target-URI") = if a.Describes then none else some a.uri := by
  rw [value_of (by decide)]
  unfold converted
  split <;> rfl

theorem value_ctype (a : ArcRecord) (id iso : Str) : (a.asWarc id iso).value (lit "Content-Type") = some (if a.Describes then a.ctype else lit "application/http;msgtype=response") := by
  rw [value_of (by decide)]
  unfold converted
  split <;> rfl

theorem value_length (a : ArcRecord) (id iso : Str) : (a.asWarc id iso).value (lit "Content-Length") = some a.length := by
  rw [value_of (by decide)]
  unfold converted
  split <;> rfl

theorem value_digests (a : ArcRecord) (id iso : Str) : (a.asWarc id iso).value (lit "WARC-Block-Digest") = none ∧ (a.asWarc id iso).value (lit "WARC-Payload-Digest") = none := by
  rw [value_of (by decide), value_of (by decide)]
  unfold converted
  constructor <;> split <;> rfl

theorem http_asWarc (a : ArcRecord) {io : IterOpts} (ha : io.arc2warc = true) (id iso : Str) : (a.asWarc id iso).Http ↔ a.Http io := by
  unfold WarcRecord.Http Http
  rw [value_type, value_uri, ha]
  by_cases hd : a.Describes
  · simp [hd]
  · simp only [hd, if_false, if_true, not_false_eq_true, true_and, Option.some.injEq]
    constructor
    · rintro ⟨u, v, rfl, h1, -, x, h2, h3⟩
      cases h2
      exact ⟨v, h1, h3⟩
    · rintro ⟨v, h1, h2⟩
      exact ⟨a.uri, v, rfl, h1, .inl rfl, v, rfl, h2⟩

theorem versionLine_asWarc (a : ArcRecord) (id iso : Str) : VersionLine (a.asWarc id iso).head (lit "WARC/1.0") [] := by
  have e : lineText (takeLine (utf8Encode (lit "WARC/1.0\r\n"))) = lit "WARC/1.0" := by decide +kernel
  refine ⟨by decide, ?_, ?_⟩
  · show _ <+: PyUni.upper (lineText (takeLine (utf8Encode (lit "WARC/1.0\r\n"))))
    rw [e, PyUni.upper_ascii _ (by decide)]
    decide
  · show [] = strip ((lineText (takeLine (utf8Encode (lit "WARC/1.0\r\n")))).drop _)
    rw [e]; decide

theorem iso_plain (d : DateTime) : Plain (datetimeToIsoDate d) := by
  apply noSpace_value
  show ∀ c ∈ d.strftimeIso, isSpace c = false
  rw [strftimeIso_eq]
  have p : ∀ w n, ∀ c ∈ DateTime.pad w n, isSpace c = false := fun w n c hc => isDig_space (pad_isDig w n c hc)
  intro c hc
  simp only [List.mem_append, List.mem_cons, List.not_mem_nil, or_false] at hc
  rcases hc with h | rfl | h | rfl | h | rfl | h | rfl | h | rfl | h | rfl
  all_goals first | exact p _ _ c h | decide

/-- The converted record as it is seen. -/
theorem shows_asWarc {a : ArcRecord} {io : IterOpts} (ha : io.arc2warc = true) {m : Nat} {rec : Record Unit} {left : Bytes} (h : a.Shows io m rec left) :
    ∃ k d, a.Dated d ∧ (a.asWarc (io.ids k) (datetimeToIsoDate d)).Shows io m rec left := by
  obtain ⟨k, d, h1, h2⟩ := h.converted ha
  refine ⟨k, d, h1, ?_⟩
  have hh := http_asWarc a ha (io.ids k) (datetimeToIsoDate d)
  refine ⟨by rw [h.format, ha]; rfl, ?_, ?_, ?_, h.length, h2, ?_, h.payload, h.payloadLength, ?_, h.checker⟩
  · rw [h.version.1, h.version.2]; exact versionLine_asWarc _ _ _
  · rw [h.recType, value_type, ha]; rfl
  · rw [h.contentType, value_ctype, ha]
    by_cases hd : a.Describes <;> simp [hd]
  · rw [hh]; exact h.block
  · rw [hh]; exact h.http

/-- The names of the headers of the converted record. -/
theorem names_count (a : ArcRecord) (id iso : Str) (q : Str → Bool)
    (h1 : ([lit "WARC-Type", lit "WARC-Record-ID", lit "WARC-Filename", lit "WARC-IP-Address", lit "WARC-Date", lit "Content-Type", lit "Content-Length"].countP q) ≤ 1)
    (h2 : ([lit "WARC-Type", lit "WARC-Record-ID", lit "WARC-Target-URI", lit "WARC-IP-Address", lit "WARC-Date", lit "Content-Type", lit "Content-Length"].countP q) ≤ 1) :
    ((a.converted id iso).filter (fun h => q h.1)).length ≤ 1 := by
  rw [← List.countP_eq_length_filter, show (fun h : Str × Str => q h.1) = q ∘ Prod.fst from rfl, ← List.countP_map]
  unfold converted
  by_cases hd : a.Describes
  · rw [if_pos hd, if_pos hd, if_pos hd]; exact h1
  · rw [if_neg hd, if_neg hd, if_neg hd]; exact h2

theorem shaped_asWarc {a : ArcRecord} {io : IterOpts} (ha : io.arc2warc = true) {m : Nat} {payload : Bytes} (h : a.Convertible io m payload)
    {id : Str} (hid : Plain id) (d : DateTime) : (a.asWarc id (datetimeToIsoDate d)).Shaped m payload := by
  have hh := http_asWarc a ha id (datetimeToIsoDate d)
  have one : ∀ n, isAscii n = true → ((a.converted id (datetimeToIsoDate d)).filter (fun h => h.1.map Char.toLower == n.map Char.toLower)).length ≤ 1 → AtMostOne n (a.asWarc id (datetimeToIsoDate d)).headers := by
    intro n hn h1
    show ((a.converted id (datetimeToIsoDate d)).filter (nameEq n)).length ≤ 1
    have hasc : ∀ h ∈ a.converted id (datetimeToIsoDate d), isAscii h.1 = true := by rw [← converted_eq]; exact Props.converted_ascii _ _ _ _ _ _
    rw [List.filter_congr (q := fun h => h.1.map Char.toLower == n.map Char.toLower)]
    · exact h1
    · intro x hx
      unfold nameEq
      rw [PyUni.lower_ascii _ hn, PyUni.lower_ascii _ (hasc x hx)]
  refine ⟨?_, ?_, ?_, ?_, ?_, ?_, ⟨_, value_length _ _ _⟩, ?_⟩
  · have name : ∀ {n v : Str}, GoodHeader (n, []) → Plain v → GoodHeader (n, v) := fun h hv => goodHeader_name h hv
    intro x hx
    have hx : x ∈ a.converted id (datetimeToIsoDate d) := hx
    unfold converted at hx
    simp only [List.mem_cons, List.not_mem_nil, or_false] at hx
    rcases hx with rfl | rfl | rfl | rfl | rfl | rfl | rfl
    · refine name ⟨⟨by decide, by decide, by decide, by decide, by decide⟩, by decide, by decide⟩ ?_
      split <;> exact ⟨by decide, by decide, by decide⟩
    · exact name ⟨⟨by decide, by decide, by decide, by decide, by decide⟩, by decide, by decide⟩ hid
    · by_cases hd : a.Describes
      · rw [if_pos hd]
        exact name ⟨⟨by decide, by decide, by decide, by decide, by decide⟩, by decide, by decide⟩ (h.file hd)
      · rw [if_neg hd]
        exact name ⟨⟨by decide, by decide, by decide, by decide, by decide⟩, by decide, by decide⟩ (h.uri hd).1
    · exact name ⟨⟨by decide, by decide, by decide, by decide, by decide⟩, by decide, by decide⟩ h.ip
    · exact name ⟨⟨by decide, by decide, by decide, by decide, by decide⟩, by decide, by decide⟩ (iso_plain d)
    · refine name ⟨⟨by decide, by decide, by decide, by decide, by decide⟩, by decide, by decide⟩ ?_
      by_cases hd : a.Describes
      · rw [if_pos hd]; exact h.ctype
      · rw [if_neg hd]; exact ⟨by decide, by decide, by decide⟩
    · exact name ⟨⟨by decide, by decide, by decide, by decide, by decide⟩, by decide, by decide⟩ h.length
  · exact one _ (by decide) (names_count a _ _ (fun x => x.map Char.toLower == (lit "Content-Length").map Char.toLower) (by decide) (by decide))
  · exact one _ (by decide) (names_count a _ _ (fun x => x.map Char.toLower == (lit "Content-Type").map Char.toLower) (by decide) (by decide))
  · rw [value_uri]
    intro u hu
    split at hu
    · cases hu
    · rename_i hd; cases hu; exact (h.uri hd).2
  · obtain ⟨hb, hs⟩ := h.splits
    cases hs with
    | whole h0 => exact ⟨[], .whole (by rw [hh]; exact h0)⟩
    | http hd _ h1 h2 h3 h4 h5 => exact ⟨_, .http hd _ (hh.2 h1) h2 h3 h4 h5⟩
  · rw [value_type]
    intro hc
    exfalso
    revert hc
    split <;> decide
  · rw [value_type, value_uri]
    by_cases hd : a.Describes
    · rw [if_pos hd, if_pos hd]
      rintro (h | h | h)
      · exact absurd h (by decide)
      · exact absurd h (by decide)
      · exact absurd h (by decide)
    · rw [if_neg hd, if_neg hd]
      intro _; simp

omit [PyUni] [Hashlib] in
theorem map_last {α β : Type} [DecidableEq β] (g : α → β) (x : α) {n1 n2 n3 n4 n5 n6 : α} {v1 v2 v3 v4 v5 v6 v t : γ}
    (h1 : g n1 ≠ g x) (h2 : g n2 ≠ g x) (h3 : g n3 ≠ g x) (h4 : g n4 ≠ g x) (h5 : g n5 ≠ g x) (h6 : g n6 ≠ g x) :
    ((n1, v1) :: (n2, v2) :: (n3, v3) :: [(n4, v4), (n5, v5), (n6, v6), (x, v)]).map (fun h => if g h.1 = g x then (h.1, t) else h) =
      (n1, v1) :: (n2, v2) :: (n3, v3) :: [(n4, v4), (n5, v5), (n6, v6), (x, t)] := by
  simp [h1, h2, h3, h4, h5, h6]

theorem map_length (a : ArcRecord) (id iso t : Str) :
    (a.converted id iso).map (fun h => if PyUni.lower h.1 = PyUni.lower (lit "Content-Length") then (h.1, t) else h) =
      ({ a with length := t } : ArcRecord).converted id iso := by
  have n1 : PyUni.lower (lit "WARC-Type") ≠ PyUni.lower (lit "Content-Length") := differ (by decide) (by decide) (by decide)
  have n2 : PyUni.lower (lit "WARC-Record-ID") ≠ PyUni.lower (lit "Content-Length") := differ (by decide) (by decide) (by decide)
  have n3 : PyUni.lower (lit "WARC-Filename") ≠ PyUni.lower (lit "Content-Length") := differ (by decide) (by decide) (by decide)
  have n4 : PyUni.lower (lit "WARC-Target-URI") ≠ PyUni.lower (lit "Content-Length") := differ (by decide) (by decide) (by decide)
  have n5 : PyUni.lower (lit "WARC-IP-Address") ≠ PyUni.lower (lit "Content-Length") := differ (by decide) (by decide) (by decide)
  have n6 : PyUni.lower (lit "WARC-Date") ≠ PyUni.lower (lit "Content-Length") := differ (by decide) (by decide) (by decide)
  have n7 : PyUni.lower (lit "Content-Type") ≠ PyUni.lower (lit "Content-Length") := differ (by decide) (by decide) (by decide)
  by_cases hd : a.Describes
  · have hd' : ({ a with length := t } : ArcRecord).Describes := hd
    unfold converted
    rw [if_pos hd, if_pos hd, if_pos hd, if_pos hd', if_pos hd', if_pos hd']
    exact map_last PyUni.lower _ n1 n2 n3 n5 n6 n7
  · have hd' : ¬ ({ a with length := t } : ArcRecord).Describes := hd
    unfold converted
    rw [if_neg hd, if_neg hd, if_neg hd, if_neg hd', if_neg hd', if_neg hd']
    exact map_last PyUni.lower _ n1 n2 n4 n5 n6 n7

theorem written {a : ArcRecord} {f : Bytes → Bytes} {ids : Nat → Str} {k : Nat} {d : DateTime} {payload : Bytes} {w : WarcRecord} (hd : a.Dated d)
    (h : (a.asWarc (ids k) (datetimeToIsoDate d)).Rewritten f payload w) : a.Written f ids payload w := by
  refine ⟨h.good, (h.head _ _ (versionLine_asWarc _ _ _)).2, ⟨k, d, hd, ?_⟩, h.block, h.sep⟩
  obtain ⟨pd, bd, e, p1, p2, -, b2⟩ := h.headers
  have hnone : ∀ n, (a.asWarc (ids k) (datetimeToIsoDate d)).value n = none → ¬ (a.asWarc (ids k) (datetimeToIsoDate d)).Has n := by
    rintro n h0 ⟨c, t, h1⟩
    rw [h0] at h1; cases h1
  have hdig := value_digests a (ids k) (datetimeToIsoDate d)
  rw [e, b2 (hnone _ hdig.1)]
  congr 1
  have hm := map_length a (ids k) (datetimeToIsoDate d) (intToStr (len a.block))
  rw [show (a.asWarc (ids k) (datetimeToIsoDate d)).headers = a.converted (ids k) (datetimeToIsoDate d) from rfl,
    show (a.asWarc (ids k) (datetimeToIsoDate d)).block = a.block from rfl, hm]
  congr 1
  rw [value_type] at p1 p2
  by_cases hde : a.Describes
  · rw [if_pos hde] at p1 ⊢
    exact p1 (.inr (.inl rfl))
  · rw [if_neg hde] at p2 ⊢
    exact p2 (hnone _ hdig.2) (by decide) (by decide)

end ArcRecord
end Warcio
