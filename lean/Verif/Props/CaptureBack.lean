import Verif.Spec.CaptureBack
import Verif.Props.CreateBack

/-!
# Property C77: a capture is read back, and passes the check

Specification: `Verif/Spec/CaptureBack.lean`.
-/

set_option linter.unusedSectionVars false

namespace Warcio.Props

open Warcio Writer Builder ArchiveIter Checker StatusAndHeaders Capture

section
variable [PyUni] [Hashlib] [Deflater] {IsMember : Bytes → Bytes → Prop} {f : Bytes → Bytes} {c : BuilderCfg}

/-- A message of an exchange, as an item that fits. -/
theorem exchange_fits {env : Env} {u recType : Str} {dict : List Header} {h : StatusAndHeaders} {d b : Bytes} (hown : OwnHeaders dict) (ht : recType = lit "request" ∨ recType = lit "response")
    (m : Message recType h d b) (hw : lit "http:" <+: u ∨ lit "https:" <+: u) (hd : IsDate env.now ∧ env.now.aware = false) (hid : GoodHeader (lit "WARC-Record-ID", env.newId))
    (hu : GoodHeader (lit "WARC-Target-URI", u) ∧ WarcRecord.TidyUri u) (hg : ∀ x ∈ dict, GoodHeader x) :
    NewItem.Fits { env := env, args := exchangeArgs u recType b dict, http := some h, payload := d } := by
  have hb : NewItem.block { env := env, args := exchangeArgs u recType b dict, http := some h, payload := d } = b := m.bytes.symm
  refine ⟨.message (.mem { content := b }) h rfl rfl rfl (by rw [hb]; rfl) ?_ (by rw [hb]; exact m) (.inr ⟨by rw [hb]; rfl, rfl, rfl⟩), rfl, hd, hid, hg, own_fits hown _, ?_, ?_, ?_, hu.1, hu.2, ?_, goodName_ctype⟩
  · rcases ht with rfl | rfl
    · exact ⟨.inr (.inl rfl), u, rfl, hw⟩
    · exact ⟨.inl rfl, u, rfl, hw⟩
  · show (named (lit "Content-Type") dict).length ≤ 1
    rw [own_named hown (differ (by decide) (by decide) (by decide)) (differ (by decide) (by decide) (by decide))]
    exact Nat.zero_le _
  · show GoodHeader (lit "WARC-Type", recType)
    rcases ht with rfl | rfl <;> exact ⟨⟨by decide, by decide, by decide, by decide, by decide⟩, by decide, by decide⟩
  · show recType ≠ lit "revisit"
    rcases ht with rfl | rfl <;> decide
  · intro e
    exact absurd e (http_nonempty hw)

/-- What there is to know of the request as it is written. -/
structure LinkedMade (IsMember : Bytes → Bytes → Prop) (f : Bytes → Bytes) (c : BuilderCfg) (i i' : NewItem) (y : Bytes × OutRecord FileObj × Bytes × Bytes) : Prop where
  regular : Regular y.2.1
  parts : y.2.2 = (i.head, i.payload)
  stored : Warcio.Stored IsMember c.gzip y.1 (inFile f y).bytes
  recType : y.2.1.recType = some (lit "request")
  version : y.2.1.recHeaders.protocol = c.version ∧ y.2.1.recHeaders.statusline = []
  uri : firstValue (lit "WARC-Target-URI") y.2.1.recHeaders.headers = some i.args.uri
  id : firstValue (lit "WARC-Record-ID") y.2.1.recHeaders.headers = some i.env.newId
  segment : firstValue (lit "WARC-Segment-Number") y.2.1.recHeaders.headers = none
  right : RightDigests y.2.1 i.block i.payload
  headers : ∃ hs, NewInFile f c.version i'.env i.args.uri (lit "response") i.args.dict i'.block i'.payload hs ∧
    LinkedRequest f i.args.uri i.env i.args.dict i.block i.payload hs (writtenHeaders f y.2.1 i.head i.payload)

theorem right_same {r r' : OutRecord FileObj} {b d : Bytes} (h : RightDigests r b d) (ht : r'.recType = r.recType) (hl : r'.length = r.length)
    (h1 : named (lit "WARC-Block-Digest") r'.recHeaders.headers = named (lit "WARC-Block-Digest") r.recHeaders.headers)
    (h2 : named (lit "WARC-Payload-Digest") r'.recHeaders.headers = named (lit "WARC-Payload-Digest") r.recHeaders.headers) : RightDigests r' b d := by
  cases h with
  | given a b => exact .given (fun v hv => a v (by rw [← first_named h1]; exact hv)) (fun v hv => b v (by rw [← first_named h2]; exact hv))
  | unknown a b c =>
    refine .unknown (hl.trans a) ?_ ?_
    · show (named _ _).length ≤ 1; rw [h1]; exact b
    · show (named _ _).length ≤ 1; rw [h2]; exact c
  | revisit a => exact .revisit (ht.trans a)

theorem linked_made (D : LawfulDeflater IsMember) (H : Hashlib.hash (lit "sha1") = some f) (hv : c.version ∈ [lit "WARC/1.1", lit "WARC/1.0", lit "WARC/0.17", lit "WARC/0.18"]) {i i' : NewItem} (hi : i.Fits) (hi' : i'.Fits)
    {u : Str} {dict : List Header} (hu : u ≠ []) (hown : OwnHeaders dict) (ha : i.args.recType = lit "request" ∧ i.args.uri = u ∧ i.args.dict = dict)
    (ha' : i'.args.recType = lit "response" ∧ i'.args.uri = u ∧ i'.args.dict = dict) (hid : i'.env.newId ≠ []) {req resp : OutRecord FileObj}
    (k1 : CreatedReady c f i.env i.args i.block i.payload req) (k2 : CreatedReady c f i'.env i'.args i'.block i'.payload resp) {o : OutFile} (ho : o.AtEnd) :
    ∃ y y' req' resp', writePair c req resp o = (.ok (), req', resp', o.extended (y'.1 ++ y.1)) ∧ Made IsMember f c i' y' ∧ LinkedMade IsMember f c i i' y := by
  obtain ⟨R, hb1, hb2, z, z', req', resp', l, e1, e2, -, w, s1, s2, n1, n2⟩ :=
    created_linked D H hi.date hi'.date hid hu hown ⟨hi.alone, ha⟩ ⟨hi'.alone, ha'⟩ k1 k2 ho
  have e1 : i.head = hb1 := List.append_cancel_right e1
  have e2 : i'.head = hb2 := List.append_cancel_right e2
  subst e1 e2
  refine ⟨(z', R, i.head, i.payload), (z, resp, i'.head, i'.payload), req', resp', w, ⟨k2, rfl, s1⟩, ?_⟩
  obtain ⟨l1, l2, l3, l4, l5⟩ := link_same l
  have hn := hi.facts k1
  have hn' := hi'.facts k2
  have v0 : ∀ {n : Str}, named n dict = [] → values n dict = [] := by
    intro n h
    unfold values
    rw [h]
    rfl
  have u1 := hn.uri
  have u2 := hn'.uri
  have i2 := hn'.id
  obtain ⟨T1, -, m1⟩ := hn.date
  obtain ⟨T2, t2, m2⟩ := hn'.date
  rw [ha.2.1, if_neg hu] at u1
  rw [ha'.2.1, if_neg hu] at u2
  rw [ha'.2.2, if_pos (v0 (own_none hown (by simp)))] at i2 m2
  rw [ha.2.2, if_pos (v0 (own_none hown (by simp)))] at m1
  obtain ⟨hb, w1, -⟩ := k1.writable
  obtain ⟨R', l', -, -, -, -, -, g1, -, -, -, g5⟩ := linked_facts w1 (first_of u2).1 (first_of m2).1 (first_of u1).2 (first_of m1).2 f
  have : R' = R := Option.some.inj (l'.symm.trans l)
  subst this
  have keep : ∀ {n : Str}, n ∈ [lit "WARC-Type", lit "WARC-Record-ID", lit "Content-Length", lit "WARC-Block-Digest", lit "WARC-Payload-Digest", lit "Content-Type", lit "WARC-Segment-Number"] →
      named n R'.recHeaders.headers = named n req.recHeaders.headers := by
    intro n hn
    simp only [List.mem_cons, List.not_mem_nil, or_false] at hn
    rcases hn with rfl | rfl | rfl | rfl | rfl | rfl | rfl <;>
      exact g5 _ (differ (by decide) (by decide) (by decide)) (differ (by decide) (by decide) (by decide)) (differ (by decide) (by decide) (by decide))
  have hreg : Regular req := hi.regular hv k1
  have huri : firstValue (lit "WARC-Target-URI") R'.recHeaders.headers = some u := by
    rw [← written_uri (f := f) (hb := hb) (d := i.payload)]
    exact (first_of g1).1
  have t0 : R'.recType = some (lit "request") := by rw [l3, k1.recType, ha.1]
  have d0 : ∀ n ∈ [lit "WARC-Block-Digest", lit "WARC-Payload-Digest", lit "WARC-Record-ID"], firstValue n i.args.dict = none := by
    intro n hn
    rw [ha.2.2, Loader.firstValue_eq, findHeader_filter, ← named_eq]
    simp only [List.mem_cons, List.not_mem_nil, or_false] at hn
    rcases hn with rfl | rfl | rfl <;> rw [own_none hown (by simp)] <;> rfl
  refine ⟨⟨by rw [l1]; exact hreg.version, by rw [l2]; exact hreg.status, ?_, by rw [l5]; exact hreg.ctype, ?_, ?_, ?_, ?_, ?_⟩, rfl, s2, t0, ⟨l1.trans k1.version.1, l2.trans k1.version.2⟩, ?_, ?_, ?_, ?_, ?_⟩
  · obtain ⟨L, q1, q2⟩ := linkRequest_eq (req := req) (first_of u2).1 (first_of m2).1
    have e := Option.some.inj (q1.symm.trans l)
    rw [← e]
    show ∀ x ∈ L, GoodHeader x
    rw [q2]
    have hgd : GoodHeader (lit "WARC-Date", T2) := by
      have hr' : Regular resp := hi'.regular hv k2
      have := first_of m2
      rw [Loader.firstValue_eq] at this
      obtain ⟨x, hx, e⟩ := find_mem this.1
      rw [← e]
      exact goodHeader_name goodName_date (goodHeader_value (hr'.headers x hx))
    have hgi := hi'.id
    intro x hx
    rcases List.mem_append.1 hx with hx | hx
    · exact good_replace (good_replace hreg.headers (by rw [← ha.2.1]; exact hi.uri)) hgd x hx
    · rw [(first_of i2).1] at hx
      split at hx
      · rw [List.mem_singleton.1 hx]
        exact goodHeader_name (x := (lit "WARC-Concurrent-To", [])) ⟨⟨by decide, by decide, by decide, by decide, by decide⟩, by decide, by decide⟩ (goodHeader_value hgi)
      · cases hx
  · show (named _ _).length ≤ 1
    rw [keep (by simp)]
    exact hreg.oneLength
  · show (named _ _).length ≤ 1
    rw [keep (by simp)]
    exact hreg.oneType
  · rw [l3, hreg.recType]
    exact (first_named (keep (by simp))).symm
  · intro _
    rw [huri]
    simp
  · intro v hv
    rw [huri] at hv
    cases hv
    rw [← ha.2.1]
    exact hi.tidy
  · rw [ha.2.1]
    exact huri
  · show firstValue _ R'.recHeaders.headers = _
    rw [first_named (keep (n := lit "WARC-Record-ID") (by simp)), hi.first_id k1, d0 _ (by simp)]
    rfl
  · show firstValue _ R'.recHeaders.headers = _
    rw [first_named (keep (n := lit "WARC-Segment-Number") (by simp)), first_named (created_named k1 (by simp)), ha.2.2, Loader.firstValue_eq, findHeader_filter, ← named_eq,
      own_named hown (differ (by decide) (by decide) (by decide)) (differ (by decide) (by decide) (by decide))]
    rfl
  · exact right_same (hi.right H k1 (fun v hv => by rw [d0 _ (by simp)] at hv; cases hv) (fun v hv => by rw [d0 _ (by simp)] at hv; cases hv)) l3 l4 (keep (by simp)) (keep (by simp))
  · rw [ha.2.1, ha.2.2]
    exact ⟨_, n1, n2⟩

theorem web_http {r : OutRecord FileObj} {u : Str} (ht : r.recType = some (lit "request")) (hu : firstValue (lit "WARC-Target-URI") r.recHeaders.headers = some u) (hw : lit "http:" <+: u ∨ lit "https:" <+: u) :
    HttpRecord r.recType (firstValue (lit "WARC-Target-URI") r.recHeaders.headers) := by
  rw [ht, hu]
  exact ⟨.inr (.inl rfl), u, rfl, hw⟩

variable {τ : Type}

theorem LinkedMade.block {x : Exchange τ} {y : Bytes × OutRecord FileObj × Bytes × Bytes} (h : LinkedMade IsMember f c x.requestItem x.responseItem y) :
    blockOf y.2.1 y.2.2.1 y.2.2.2 = Exchange.bytesOf x.request := by
  rw [h.parts]
  unfold blockOf
  rw [h.recType, if_neg (by decide)]
  rfl

/-- What is read where a request was written. -/
theorem LinkedMade.back {x : Exchange τ} {y : Bytes × OutRecord FileObj × Bytes × Bytes} (hw : lit "http:" <+: x.url ∨ lit "https:" <+: x.url) (hq : RegularHttp x.request.1)
    (h : LinkedMade IsMember f c x.requestItem x.responseItem y) {io : IterOpts} {m : Nat} {rec : Record Unit} {left : Bytes} (hs : (inFile f y).Shows io m rec left) : x.RequestBack f c.version io m rec left := by
  have hbl := h.block
  obtain ⟨z, r, hb, d⟩ := y
  have e := h.parts
  cases e
  have hr : Regular r := h.regular
  have hsame := hr.same hs (headersFor f r x.requestItem.head x.requestItem.payload)
  have hhead : rec.recHeaders.headers = writtenHeaders f r x.requestItem.head x.requestItem.payload := by
    refine hs.headers fun u hu => hr.tidy u ?_
    rw [← hu]
    exact written_uri.symm
  refine ⟨hsame.format, hsame.recType.trans h.recType, ?_, ?_, ?_, ?_, ?_⟩
  · rw [hsame.version.1, hsame.version.2]; exact h.version
  · obtain ⟨hs0, k1, k2⟩ := h.headers
    exact ⟨hs0, k1, by rw [hhead]; exact k2⟩
  · rw [hsame.length]
    exact congrArg (fun b => some (len b)) hbl
  · intro hc
    have k := hsame.block (.inl hc)
    exact ⟨k.1.trans hbl, k.2⟩
  · intro hp hm
    obtain ⟨g1, -, g3⟩ := hsame.http hp (web_http h.recType h.uri hw) x.request.1 hq rfl (by
      have e : blockOf r x.requestItem.head x.requestItem.payload = Exchange.bytesOf x.request := hbl
      rw [e]; exact hm)
    have e : x.requestItem.head ++ left = x.requestItem.head ++ x.request.2 := g1.trans hbl
    exact ⟨List.append_cancel_left e, g3⟩

/-- An exchange, and the two records that were made and written. -/
structure ExchangeMade (IsMember : Bytes → Bytes → Prop) (f : Bytes → Bytes) (c : BuilderCfg) (x : Exchange τ) (y : (Bytes × OutRecord FileObj × Bytes × Bytes) × (Bytes × OutRecord FileObj × Bytes × Bytes)) : Prop where
  web : lit "http:" <+: x.url ∨ lit "https:" <+: x.url
  http : RegularHttp x.request.1 ∧ RegularHttp x.response.1
  fits : x.responseItem.Fits
  own : OwnHeaders x.dict
  response : Made IsMember f c x.responseItem y.1
  request : LinkedMade IsMember f c x.requestItem x.responseItem y.2

variable [PyStream τ] {flt : Option Recorder.Filter}

theorem exchange_made (D : LawfulDeflater IsMember) (H : Hashlib.hash (lit "sha1") = some f) (hf : c.filter = some) (hv : c.version ∈ [lit "WARC/1.1", lit "WARC/1.0", lit "WARC/0.17", lit "WARC/0.18"])
    (hacc : ∀ g, flt = some g → ∀ req resp r, g req resp r = (some req, some resp)) {s : State τ} (hown : OwnHeaders s.recorder.headers) (ho : s.out.AtEnd) {x : Exchange τ} (hx : x.Happens c flt s) :
    ∃ y, ExchangeMade IsMember f c x y ∧ (run c flt s x.events).2.out = s.out.extended (y.1.1 ++ y.2.1) := by
  have hv0 : c.version ≠ [] := by
    intro e
    rw [e] at hv
    revert hv
    decide
  have hown' : OwnHeaders x.dict := by
    rw [← hx.dict]
    exact own_run (own_run hown _) _
  have hout : (run c flt s (x.before ++ [.start])).2.out = s.out := by
    refine C62_only_close s ?_
    intro e he envs
    rcases List.mem_append.1 he with he | he
    · exact hx.quiet e he envs
    · rw [List.mem_singleton.1 he]
      intro h
      cases h
  have q1 : Exchange.bytesOf x.request = sentBytes x.inner := hx.request.bytes.symm
  have q2 : Exchange.bytesOf x.response = receivedBytes (run c flt (run c flt s (x.before ++ [.start])).2 x.inner).1 := hx.response.bytes.symm
  obtain ⟨req, resp, k1, k2, k3⟩ := exchange_created (envs := x.envs) H hf hv0 rfl rfl hx.inner hx.full hx.url hx.web hx.request hx.response (fun g req resp hg _ _ => hacc g hg req resp _)
  rw [hx.dict, ← q1] at k1
  rw [hx.dict, ← q2] at k2
  rw [hout] at k3
  have f1 : x.requestItem.Fits := exchange_fits hown' (.inl rfl) (by rw [q1]; exact hx.request) hx.web hx.dates.1 hx.ids.1 hx.goodUrl hx.goodDict
  have f2 : x.responseItem.Fits := exchange_fits hown' (.inr rfl) (by rw [q2]; exact hx.response) hx.web hx.dates.2 hx.ids.2.1 hx.goodUrl hx.goodDict
  obtain ⟨y, y', req', resp', w, m1, m2⟩ := linked_made (i := x.requestItem) (i' := x.responseItem) D H hv f1 f2 (http_nonempty hx.web) hown' ⟨rfl, rfl, rfl⟩ ⟨rfl, rfl, rfl⟩ hx.ids.2.2 k1 k2 ho
  refine ⟨(y', y), ⟨hx.web, ⟨hx.request.regular, hx.response.regular⟩, f2, hown', m1, m2⟩, ?_⟩
  have e : x.events = (x.before ++ [.start]) ++ (x.inner ++ [.close x.envs]) := by simp [Exchange.events]
  rw [e, run_append s (x.before ++ [Event.start])]
  dsimp only
  rw [run_append _ x.inner]
  exact (k3 w).2

theorem exchanges_made (D : LawfulDeflater IsMember) (H : Hashlib.hash (lit "sha1") = some f) (hf : c.filter = some) (hv : c.version ∈ [lit "WARC/1.1", lit "WARC/1.0", lit "WARC/0.17", lit "WARC/0.18"])
    (hacc : ∀ g, flt = some g → ∀ req resp r, g req resp r = (some req, some resp)) : ∀ (xs : List (Exchange τ)) {s : State τ}, OwnHeaders s.recorder.headers → s.out.AtEnd → Exchange.AllHappen c flt s xs →
      ∃ ys, Each (ExchangeMade IsMember f c) xs ys ∧ (run c flt s (xs.flatMap Exchange.events)).2.out = s.out.extended (ys.flatMap (fun y => y.1.1 ++ y.2.1))
  | [], s, _, ho, _ => ⟨[], .nil, (extended_nil ho).symm⟩
  | x :: xs, s, hown, ho, h => by
    obtain ⟨y, k1, k2⟩ := exchange_made D H hf hv hacc hown ho h.1
    obtain ⟨ys, m1, m2⟩ := exchanges_made D H hf hv hacc xs (own_run hown x.events) (run_atEnd ho x.events) h.2
    refine ⟨y :: ys, .cons k1 m1, ?_⟩
    rw [List.flatMap_cons, run_append, List.flatMap_cons]
    show (run c flt (run c flt s x.events).2 (xs.flatMap Exchange.events)).2.out = _
    rw [m2, k2, extended_extended]

variable [Zlib] {IsCoded : DType → Bytes → Bytes → Prop}

theorem weaker_exchanges (hv : c.version ∈ [lit "WARC/1.1", lit "WARC/1.0", lit "WARC/0.17", lit "WARC/0.18"]) {io : IterOpts} {m : Nat} {xs : List (Exchange τ)}
    {ys : List ((Bytes × OutRecord FileObj × Bytes × Bytes) × (Bytes × OutRecord FileObj × Bytes × Bytes))} (h : Each (ExchangeMade IsMember f c) xs ys) : ∀ off : Int,
      Weaker (storedIn c.gzip io m off ((ys.flatMap (fun y => [y.1, y.2])).map (fun y => (y.1, inFile f y)))) (Exchange.back f c.version c.gzip io m off (xs.zip (ys.map (fun y => (y.1.1, y.2.1))))) := by
  induction h with
  | nil => intro off; exact .nil
  | cons h1 _ ih =>
    intro off
    exact .cons ⟨fun rec left hs => h1.response.back hv h1.fits hs, rfl, rfl, rfl, fun _ => rfl⟩
      (.cons ⟨fun rec left hs => h1.request.back h1.web h1.http.1 hs, rfl, rfl, rfl, fun _ => rfl⟩ (ih _))

theorem exchanges_said {xs : List (Exchange τ)} {ys : List ((Bytes × OutRecord FileObj × Bytes × Bytes) × (Bytes × OutRecord FileObj × Bytes × Bytes))} (h : Each (ExchangeMade IsMember f c) xs ys) :
    ∀ {lines : List Print}, Each (fun (x : OutRecord FileObj × Bytes × Bytes) p => ∃ off note, p = .record off (firstValue (lit "WARC-Record-ID") x.1.recHeaders.headers) x.1.recType (some note) [] ∧
      (MustPass x.1 (blockOf x.1 x.2.1 x.2.2) → note = lit "digest pass")) ((ys.flatMap (fun y => [y.1, y.2])).map (·.2)) lines →
    Each (fun x p => ∃ off note, p = .record off (some x.1) (some x.2.1) (some note) [] ∧ (x.2.2 → note = lit "digest pass")) (xs.flatMap Exchange.said) lines := by
  induction h with
  | nil => intro lines h; cases h; exact .nil
  | @cons x y _ _ h1 _ ih =>
    intro lines h
    rw [List.flatMap_cons, List.map_append] at h
    rw [List.flatMap_cons]
    cases h with
    | cons p1 h =>
      cases h with
      | cons p2 h =>
        have k := h1.response.created
        have hn : ∀ (b : StatusAndHeaders × Bytes), Exchange.bytesOf b ≠ [] := by
          intro b e
          have : utf8Encode (headText b.1.protocol b.1.statusline b.1.headers) = [] := (List.append_eq_nil_iff.1 e).1
          unfold headText at this
          rw [utf8Encode_append] at this
          exact absurd (List.append_eq_nil_iff.1 this).2 (by decide)
        refine .cons ?_ (.cons ?_ (ih h))
        · obtain ⟨off, note, e, hp⟩ := p1
          refine ⟨off, note, ?_, fun _ => hp ?_⟩
          · rw [e, h1.fits.first_id k, k.recType]
            have : firstValue (lit "WARC-Record-ID") x.responseItem.args.dict = none := by
              show firstValue (lit "WARC-Record-ID") x.dict = none
              rw [Loader.firstValue_eq, findHeader_filter, ← named_eq, own_none h1.own (by simp)]
              rfl
            rw [this]
            rfl
          · refine ⟨by rw [k.recType]; show some (lit "response") ≠ _; decide, .inl ?_⟩
            rw [h1.response.parts, blockOf_new h1.fits.new k]
            exact hn x.response
        · obtain ⟨off, note, e, hp⟩ := p2
          refine ⟨off, note, ?_, fun _ => hp ?_⟩
          · rw [e, h1.request.id, h1.request.recType]
            rfl
          · refine ⟨by rw [h1.request.recType]; decide, .inl ?_⟩
            rw [h1.request.block]
            exact hn x.request

theorem made_flat {xs : List (Exchange τ)} {ys : List ((Bytes × OutRecord FileObj × Bytes × Bytes) × (Bytes × OutRecord FileObj × Bytes × Bytes))} (h : Each (ExchangeMade IsMember f c) xs ys)
    {P : Bytes × OutRecord FileObj × Bytes × Bytes → Prop} (hp : ∀ x ∈ xs, ∀ y, ExchangeMade IsMember f c x y → P y.1 ∧ P y.2) : ∀ y ∈ ys.flatMap (fun y => [y.1, y.2]), P y := by
  intro y hy
  obtain ⟨z, hz, hy⟩ := List.mem_flatMap.1 hy
  obtain ⟨x, hx, k⟩ := each_right h z hz
  simp only [List.mem_cons, List.not_mem_nil, or_false] at hy
  rcases hy with rfl | rfl
  · exact (hp x hx z k).1
  · exact (hp x hx z k).2

/-- C77: what is captured, in a new file, is read back and passes the check.  Exchanges happen one after the other, with anything in between except that no other response is closed; afterwards the file
holds two records for each, the response and the request that is linked to it.  Iterating over the file gives them, with the bytes that were received and sent as HTTP headers and payload;
and `warcio check` finds all of them right.  Partial as C62: the messages are as the library writes them, `readinto` fills its buffers, the filter, if any, accepts everything; the addresses and URLs
fit in headers, and the check is for bodies that can be decoded. -/
theorem C77_partial (L : LawfulGzip IsMember) (D : LawfulDeflater IsMember) (LC : LawfulCodecs IsCoded) (H : Hashlib.hash (lit "sha1") = some f)
    (hl : ∀ algo g, Hashlib.hash algo = some g → ∀ a b, (g a).length = (g b).length) (hf : c.filter = some) (hv : c.version ∈ [lit "WARC/1.1", lit "WARC/1.0", lit "WARC/0.17", lit "WARC/0.18"])
    (hacc : ∀ g, flt = some g → ∀ req resp r, g req resp r = (some req, some resp)) {s : State τ} (hs : s.recorder.headers = []) (ho : s.out = {}) {xs : List (Exchange τ)}
    (hx : Exchange.AllHappen c flt s xs) {after : List (Event τ)} (hafter : ∀ e ∈ after, ∀ envs, e ≠ .close envs) :
    ∃ bs : List (Bytes × Bytes), bs.length = xs.length ∧ (run c flt s (xs.flatMap Exchange.events ++ after)).2.out = ({} : OutFile).extended (bs.flatMap (fun b => [b.1, b.2])).flatten ∧
      ∀ {g : FileObj}, g.rest = (bs.flatMap (fun b => [b.1, b.2])).flatten →
        (∀ {io : IterOpts} {size m : Nat} {kf : Option Format}, ReadsFile c.gzip g size m (bs.flatMap (fun b => [b.1, b.2])) → io.verifyHttp = false → io.checkDigests = none → kf ≠ some .arc →
          ∃ it, openArchive g io size kf = .ok it ∧ ∀ plan, PlanOk plan → Yields .stopIteration (Exchange.back f c.version c.gzip io m g.origin (xs.zip bs)) plan (iterate it plan)) ∧
        (∀ {m : Nat}, ReadsFile c.gzip g 16384 m (bs.flatMap (fun b => [b.1, b.2])) → (∀ x ∈ xs, x.Sound IsCoded m) → ∀ verbose name, ∃ out, processAll verbose [(name, g)] 0 = (.ok 0, out) ∧
          AllRight verbose name (xs.flatMap Exchange.said) out) := by
  obtain ⟨ys, hy, hw⟩ := exchanges_made (flt := flt) D H hf hv hacc xs (by rw [hs]; intro x h; cases h) (by rw [ho]; rfl) hx
  have e1 : ys.flatMap (fun y => y.1.1 ++ y.2.1) = ((ys.map (fun y => (y.1.1, y.2.1))).flatMap (fun b => [b.1, b.2])).flatten := by
    clear hy hw
    induction ys with
    | nil => rfl
    | cons y ys ih => simp [ih]
  have e2 : (ys.flatMap (fun y => [y.1, y.2])).map (·.1) = (ys.map (fun y => (y.1.1, y.2.1))).flatMap (fun b => [b.1, b.2]) := by
    clear hy hw e1
    induction ys with
    | nil => rfl
    | cons y ys ih => simp [ih]
  refine ⟨ys.map (fun y => (y.1.1, y.2.1)), by rw [List.length_map]; exact each_length hy, ?_, ?_⟩
  · rw [run_append]
    dsimp only
    rw [C62_only_close _ hafter, hw, ho, e1]
  intro g hg
  rw [← e2] at hg
  have hst : ∀ y ∈ ys.flatMap (fun y => [y.1, y.2]), Warcio.Stored IsMember c.gzip y.1 (inFile f y).bytes := made_flat hy (fun x _ y k => ⟨k.response.stored, k.request.stored⟩)
  have hr : ∀ y ∈ ys.flatMap (fun y => [y.1, y.2]), Regular y.2.1 := made_flat hy (fun x _ y k => ⟨k.fits.regular hv k.response.created, k.request.regular⟩)
  constructor
  · intro io size m kf hread hver hcd hk
    rw [← e2] at hread
    obtain ⟨it, k1, k2⟩ := stored_yields L hst hr hg hread hver hcd hk
    exact ⟨it, k1, fun plan hp => (k2 plan hp).mono (weaker_exchanges hv hy _)⟩
  · intro m hread hsound verbose name
    rw [← e2] at hread
    have none_of : ∀ (x : Exchange τ), OwnHeaders x.dict → ∀ n ∈ [lit "WARC-Block-Digest", lit "WARC-Payload-Digest"], firstValue n x.dict = none := by
      intro x hown n hn
      rw [Loader.firstValue_eq, findHeader_filter, ← named_eq]
      simp only [List.mem_cons, List.not_mem_nil, or_false] at hn
      rcases hn with rfl | rfl <;> rw [own_none hown (by simp)] <;> rfl
    have snd : ∀ x ∈ xs, ∀ y, ExchangeMade IsMember f c x y → x.responseItem.Sound IsCoded m := by
      intro x hx y k
      refine ⟨fun v hv => ?_, fun v hv => ?_, ⟨fun _ => (hsound x hx).lines.1, fun _ => (hsound x hx).lines.2.2⟩, fun h e => ?_⟩
      · have e := none_of x k.own _ (List.mem_cons_self ..)
        exact absurd (hv.symm.trans e) (by simp)
      · have e := none_of x k.own (lit "WARC-Payload-Digest") (by simp)
        exact absurd (hv.symm.trans e) (by simp)
      · cases e
        exact (hsound x hx).response
    obtain ⟨out, o1, o2⟩ := stored_approved (m := m) L LC H hl hst hr
      (made_flat hy (fun x hx y k => ⟨by
        rw [k.response.parts, blockOf_new k.fits.new k.response.created]
        exact k.fits.right H k.response.created (snd x hx y k).block (snd x hx y k).payload, by
        rw [k.request.block, k.request.parts]
        exact k.request.right⟩))
      (made_flat hy (fun x hx y k => ⟨by
        rw [k.response.parts]
        exact k.fits.found k.response.created (snd x hx y k), by
        obtain ⟨d, hd⟩ := (hsound x hx).request
        have e := k.request.block
        rw [k.request.parts] at e ⊢
        exact .http x.request.1 x.request.2 d (web_http k.request.recType k.request.uri k.web) k.http.1 rfl (by rw [e]; exact (hsound x hx).lines.2.1) e hd⟩))
      (made_flat hy (fun x hx y k => ⟨fun _ => (hsound x hx).lines.1, fun _ => (hsound x hx).lines.1⟩))
      hg hread verbose name
    refine ⟨out, o1, ?_⟩
    unfold Approved at o2
    unfold AllRight
    split
    · rename_i h
      rw [if_pos h] at o2
      obtain ⟨lines, e, he⟩ := o2
      exact ⟨lines, e, exchanges_said hy he⟩
    · rename_i h
      rw [if_neg h] at o2
      exact o2

end

/-! ## The hypotheses are met -/

section
open Toy

/-- Ids for a request. -/
def xEnv : Env := { wEnv with newId := lit "<urn:uuid:2>" }

/-- An exchange: a response is read after a request was sent. -/
def xGet (before : List (Event FileObj)) : Exchange FileObj :=
  { before := before, inner := cEvents, envs := (xEnv, wEnv), url := lit "http://a/x", dict := [(lit "WARC-IP-Address", lit "1.2.3.4")], request := (cHttp, []), response := (wHttp, [97, 98, 99]) }

/-- An exchange happens if the calls have these results. -/
theorem xGet_happens {s : State FileObj} {before : List (Event FileObj)} (hb : ∀ e ∈ before, ∀ envs, e ≠ .close envs)
    (h1 : (run cPlain none (run cPlain none s (before ++ [.start])).2 cEvents).1 = cResults)
    (h2 : (run cPlain none (run cPlain none s (before ++ [.start])).2 cEvents).2.recorder.url = some (lit "http://a/x"))
    (h3 : (run cPlain none (run cPlain none s (before ++ [.start])).2 cEvents).2.recorder.headers = [(lit "WARC-IP-Address", lit "1.2.3.4")]) :
    (xGet before).Happens cPlain none s where
  quiet := hb
  inner := by
    intro e he
    simp only [xGet, cEvents, Capture.send, List.cons_append, List.nil_append, List.mem_cons, List.not_mem_nil, or_false] at he
    rcases he with rfl | rfl | rfl | rfl | rfl <;> trivial
  full := by
    show ∀ r ∈ (run cPlain none (run cPlain none s (before ++ [.start])).2 cEvents).1, Full r
    rw [h1]
    intro x hx
    simp only [cResults, List.mem_cons, List.not_mem_nil, or_false] at hx
    rcases hx with rfl | rfl | rfl | rfl | rfl <;> trivial
  url := h2
  dict := h3
  web := .inl ⟨_, rfl⟩
  request := by
    have : sentBytes cEvents = cSent := by decide +kernel
    show Message _ _ _ (sentBytes cEvents)
    rw [this]
    exact c_message
  response := by
    have : receivedBytes cResults = mBytes := by decide +kernel
    show Message _ wHttp [97, 98, 99] (receivedBytes (run cPlain none (run cPlain none s (before ++ [.start])).2 cEvents).1)
    rw [h1, this]
    exact m_message
  dates := ⟨nEnv_good.1, nEnv_good.1⟩
  ids := by
    show GoodHeader (lit "WARC-Record-ID", xEnv.newId) ∧ GoodHeader (lit "WARC-Record-ID", wEnv.newId) ∧ wEnv.newId ≠ []
    exact ⟨⟨⟨by decide, by decide, by decide, by decide, by decide⟩, by decide, by decide⟩, nEnv_good.2, by decide⟩
  goodUrl := by
    show GoodHeader (lit "WARC-Target-URI", lit "http://a/x") ∧ WarcRecord.TidyUri (lit "http://a/x")
    exact ⟨⟨⟨by decide, by decide, by decide, by decide, by decide⟩, by decide, by decide⟩, by decide, (fun m h => by cases h)⟩
  goodDict := by
    intro x hx
    rw [List.mem_singleton.1 hx]
    exact ⟨⟨by decide, by decide, by decide, by decide, by decide⟩, by decide, by decide⟩

/-- The hypotheses of C77: two exchanges, and before the second one something is sent that is not part of it. -/
example : Exchange.AllHappen cPlain none cNew [xGet [], xGet [.sent [120]]] := by
  refine ⟨xGet_happens (fun e he => by cases he) (by decide +kernel) (by decide +kernel) (by decide +kernel), xGet_happens ?_ (by decide +kernel) (by decide +kernel) (by decide +kernel), trivial⟩
  intro e he envs
  rw [List.mem_singleton.1 he]
  intro h
  cases h

/-- ... which are sound. -/
example : (xGet []).Sound toyCoded 64 := by
  refine ⟨⟨by decide, ?_, ?_⟩, ⟨[], ?_⟩, ⟨[97, 98, 99], ?_⟩⟩
  · exact .line (by decide +kernel) (by decide +kernel) (.line (by decide +kernel) (by decide +kernel) (.blank (by decide +kernel) (by decide +kernel) (by decide +kernel)))
  · exact .line (by decide +kernel) (by decide +kernel) (.line (by decide +kernel) (by decide +kernel) (.blank (by decide +kernel) (by decide +kernel) (by decide +kernel)))
  · show BodyData _ (firstValue _ cHttp.headers) (firstValue _ cHttp.headers) _ _
    rw [show firstValue (lit "content-encoding") cHttp.headers = none by decide, show firstValue (lit "transfer-encoding") cHttp.headers = none by decide]
    exact .plain none _ _ (by simp) .none (.none _)
  · show BodyData _ (firstValue _ wHttp.headers) (firstValue _ wHttp.headers) _ _
    rw [show firstValue (lit "content-encoding") wHttp.headers = none by decide, show firstValue (lit "transfer-encoding") wHttp.headers = none by decide]
    exact .plain none _ _ (by simp) .none (.none _)

/-- What C77 is about, computed. -/
example : processAll true [(lit "a", { content := (run cPlain none cNew ([xGet [], xGet [.sent [120]]].flatMap Exchange.events)).2.out.content })] 0 =
    (.ok 0, [.file (lit "a"), .record 0 (some (lit "<urn:uuid:1>")) (some (lit "response")) (some (lit "digest pass")) [],
      .record 371 (some (lit "<urn:uuid:2>")) (some (lit "request")) (some (lit "digest pass")) [],
      .record 774 (some (lit "<urn:uuid:1>")) (some (lit "response")) (some (lit "digest pass")) [],
      .record 1145 (some (lit "<urn:uuid:2>")) (some (lit "request")) (some (lit "digest pass")) []]) := by decide +kernel

end
end Warcio.Props
