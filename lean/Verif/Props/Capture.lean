import Verif.Proofs.Capture
import Verif.Props.Create

/-!
# Properties C61, C62: recording HTTP traffic

Specification: `Verif/Spec/Capture.lean`.
-/

set_option linter.unusedSectionVars false

namespace Warcio.Props

open Warcio Writer Builder Capture

/-! ## C61 -/

section
variable {τ : Type} [PyStream τ] [PyUni] [Hashlib] [Deflater] {c : BuilderCfg} {flt : Option Recorder.Filter}

/-- C61: whatever was recorded before, as long as no tunnel was opened, the URL that is recorded for
a request is the one of its first line and of the host it is sent to; and it stays until the next
request starts. -/
theorem C61_url {s : State τ} (hs : s.recorder = {}) {before pre post : List (Event τ)} (hb : ∀ e ∈ before, ¬ e.Connects)
    (hpre : ∀ e ∈ pre, e ≠ .tunnel ∧ e ≠ .start ∧ e.NoLine) (hpost : ∀ e ∈ post, e ≠ .tunnel ∧ e ≠ .start) {data : Bytes} {verb target : Str}
    (hl : RequestLine data verb target) (hv : verb ≠ lit "CONNECT") (host : Str) (port default : Int) :
    (run c flt s (before ++ .start :: pre ++ .line data host port default :: post)).2.recorder.url = some (urlOf host port default target) := by
  rw [run_append, run_append]
  dsimp only
  have k1 : Direct (run c flt s before).2 := run_keeps (direct_step) (by rw [Direct, hs]; exact ⟨rfl, rfl⟩) hb
  generalize (run c flt s before).2 = s1 at k1 ⊢
  rw [run_cons s1 .start]
  have k2 : (run c flt (step c flt s1 .start).2 pre).2.recorder.firstLineRead = false ∧ (run c flt (step c flt s1 .start).2 pre).2.recorder.connectHost = none ∧
      (run c flt (step c flt s1 .start).2 pre).2.recorder.connectPort = none :=
    run_keeps (P := fun s => s.recorder.firstLineRead = false ∧ s.recorder.connectHost = none ∧ s.recorder.connectPort = none) first_keeps (s := (step c flt s1 .start).2) ⟨rfl, k1.1, k1.2⟩ hpre
  generalize (run c flt (step c flt s1 .start).2 pre).2 = s2 at k2 ⊢
  rw [url_at k2.1 hl hv host port default hpost, k2.2.1, k2.2.2]
  rfl

/-- C61 behind a tunnel: after anything else a tunnel to `h:p` is opened, then a request starts; its
URL is the one of its first line and of the host behind the tunnel. -/
theorem C61_tunnel (s : State τ) {before pre mid pre' post : List (Event τ)}
    (hpre : ∀ e ∈ pre, e ≠ .tunnel ∧ e ≠ .start ∧ e.NoLine) (hmid : ∀ e ∈ mid, e ≠ .tunnel ∧ e ≠ .start)
    (hpre' : ∀ e ∈ pre', e ≠ .tunnel ∧ e ≠ .start ∧ e.NoLine) (hpost : ∀ e ∈ post, e ≠ .tunnel ∧ e ≠ .start)
    {cdata : Bytes} {h : Str} {p : Int} (hc : RequestLine cdata (lit "CONNECT") (h ++ ':' :: intToStr p)) (h1 : ':' ∉ h) (h2 : h ≠ []) (h3 : p ≠ 0)
    (ph : Str) (pp pd : Int) {data : Bytes} {verb target : Str} (hl : RequestLine data verb target) (hv : verb ≠ lit "CONNECT") (host : Str) (port default : Int) :
    (run c flt s (before ++ .tunnel :: pre ++ .line cdata ph pp pd :: mid ++ .start :: pre' ++ .line data host port default :: post)).2.recorder.url =
      some (urlOf h p default target) := by
  rw [run_append, run_append, run_append, run_append]
  dsimp only
  generalize (run c flt s before).2 = s1
  rw [run_cons s1 .tunnel]
  have k2 := run_keeps (c := c) (flt := flt) (P := fun s => s.recorder.firstLineRead = false ∧ s.recorder.connectHost = none ∧ s.recorder.connectPort = none) first_keeps
    (s := (step c flt s1 .tunnel).2) ⟨rfl, rfl, rfl⟩ hpre
  generalize (run c flt (step c flt s1 .tunnel).2 pre).2 = s2 at k2 ⊢
  rw [run_cons s2 (.line cdata ph pp pd)]
  have k3 : (step c flt s2 (.line cdata ph pp pd)).2.recorder.firstLineRead = true ∧ (step c flt s2 (.line cdata ph pp pd)).2.recorder.connectHost = some h ∧
      (step c flt s2 (.line cdata ph pp pd)).2.recorder.connectPort = some p := by
    rw [step_line, extract_first k2.1 hc, if_pos rfl]
    unfold Recorder.setConnect
    rw [split1_self h1]
    dsimp only
    rw [parseInt_intToStr]
    exact ⟨rfl, rfl, rfl⟩
  have k4 := run_keeps (c := c) (flt := flt) (P := fun s => s.recorder.firstLineRead = true ∧ s.recorder.connectHost = some h ∧ s.recorder.connectPort = some p) tunnel_keeps k3 hmid
  generalize (run c flt (step c flt s2 (.line cdata ph pp pd)).2 mid).2 = s3 at k4 ⊢
  rw [run_cons s3 .start]
  have k5 := run_keeps (c := c) (flt := flt) (P := fun s => s.recorder.firstLineRead = false ∧ s.recorder.connectHost = some h ∧ s.recorder.connectPort = some p) first_keeps
    (s := (step c flt s3 .start).2) ⟨rfl, k4.2.1, k4.2.2⟩ hpre'
  generalize (run c flt (step c flt s3 .start).2 pre').2 = s4 at k5 ⊢
  rw [url_at k5.1 hl hv host port default hpost, k5.2.1, k5.2.2]
  have e1 : ((some h).getD []).isEmpty = false := by simpa using h2
  have e2 : (some p).getD 0 ≠ 0 := h3
  rw [e1, if_neg e2]
  rfl

end

/-! ## C62 -/

section
variable {τ : Type} [PyStream τ] [PyUni] [Hashlib] [Deflater] {IsMember : Bytes → Bytes → Prop} {c : BuilderCfg} {flt : Option Recorder.Filter}

omit [Hashlib] [Deflater] in
theorem own_named {hs : List Header} (h : OwnHeaders hs) {n : Str} (h1 : PyUni.lower (lit "WARC-IP-Address") ≠ PyUni.lower n)
    (h2 : PyUni.lower (lit "WARC-Proxy-Host") ≠ PyUni.lower n) : named n hs = [] := by
  unfold named
  rw [List.filter_eq_nil_iff]
  intro x hx
  rcases h x hx with e | e
  · simpa [e] using h1
  · simpa [e] using h2

omit [Hashlib] [Deflater] in
theorem own_none {hs : List Header} (h : OwnHeaders hs) {n : Str}
    (hn : n ∈ [lit "WARC-Type", lit "WARC-Target-URI", lit "WARC-Record-ID", lit "WARC-Date", lit "WARC-Concurrent-To", lit "Content-Length", lit "WARC-Block-Digest", lit "WARC-Payload-Digest"]) :
    named n hs = [] := by
  simp only [List.mem_cons, List.not_mem_nil, or_false] at hn
  rcases hn with rfl | rfl | rfl | rfl | rfl | rfl | rfl | rfl <;> exact own_named h (differ (by decide) (by decide) (by decide)) (differ (by decide) (by decide) (by decide))

omit [Hashlib] [Deflater] in
theorem own_fits {hs : List Header} (h : OwnHeaders hs) (u : Str) : DictFits u hs := by
  have one : ∀ {n : Str}, named n hs = [] → AtMostOne n hs := by
    intro n hn
    show (named n hs).length ≤ 1
    rw [hn]
    exact Nat.zero_le _
  have first : ∀ {n : Str}, named n hs = [] → firstValue n hs ≠ some [] := by
    intro n hn
    rw [Loader.firstValue_eq, findHeader_filter, ← named_eq, hn]
    simp
  exact ⟨one (own_none h (by simp)), fun _ => one (own_none h (by simp)), first (own_none h (by simp)), first (own_none h (by simp)), one (own_none h (by simp))⟩

omit [Hashlib] [Deflater] in
theorem first_of {n v : Str} {hs : List Header} (h : values n hs = [v]) : firstValue n hs = some v ∧ AtMostOne n hs := by
  rw [Loader.firstValue_eq, findHeader_filter, ← named_eq]
  show _ ∧ (named n hs).length ≤ 1
  unfold values at h
  match named n hs, h with
  | [x], h =>
    cases h
    exact ⟨rfl, Nat.le_refl _⟩

theorem link_same {req resp R : OutRecord FileObj} (h : linkRequest req resp = some R) : R.recHeaders.protocol = req.recHeaders.protocol ∧ R.recHeaders.statusline = req.recHeaders.statusline ∧
    R.recType = req.recType ∧ R.length = req.length ∧ R.contentType = req.contentType := by
  unfold linkRequest at h
  split at h
  · dsimp only at h
    split at h <;> cases h <;> exact ⟨rfl, rfl, rfl, rfl, rfl⟩
  · cases h

/-- Two new records with the same URI and the same headers of the caller, written as a pair. -/
theorem created_linked (D : LawfulDeflater IsMember) {f : Bytes → Bytes} (H : Hashlib.hash (lit "sha1") = some f) {e1 e2 : Env} (hd1 : IsDate e1.now ∧ e1.now.aware = false)
    (hd2 : IsDate e2.now ∧ e2.now.aware = false) (hid : e2.newId ≠ []) {a1 a2 : CreateArgs FileObj} {u : Str} {dict : List Header} (hu : u ≠ []) (hown : OwnHeaders dict)
    (h1 : a1.headers = none ∧ a1.recType = lit "request" ∧ a1.uri = u ∧ a1.dict = dict) (h2 : a2.headers = none ∧ a2.recType = lit "response" ∧ a2.uri = u ∧ a2.dict = dict)
    {b1 d1 b2 d2 : Bytes} {req resp : OutRecord FileObj} (k1 : CreatedReady c f e1 a1 b1 d1 req) (k2 : CreatedReady c f e2 a2 b2 d2 resp) {o : OutFile} (ho : o.AtEnd) :
    ∃ R hb1 hb2 z z' req' resp', linkRequest req resp = some R ∧ b1 = hb1 ++ d1 ∧ b2 = hb2 ++ d2 ∧ Writable c.filter R hb1 d1 ∧ writePair c req resp o = (.ok (), req', resp', o.extended (z ++ z')) ∧
      Stored IsMember c.gzip z (recordBytes resp.recHeaders.protocol resp.recHeaders.statusline (writtenHeaders f resp hb2 d2) (blockOf resp hb2 d2)) ∧
      Stored IsMember c.gzip z' (recordBytes R.recHeaders.protocol R.recHeaders.statusline (writtenHeaders f R hb1 d1) (blockOf R hb1 d1)) ∧
      NewInFile f c.version e2 u (lit "response") dict b2 d2 (writtenHeaders f resp hb2 d2) ∧ LinkedRequest f u e1 dict b1 d1 (writtenHeaders f resp hb2 d2) (writtenHeaders f R hb1 d1) := by
  obtain ⟨p1, p2, p3, p4⟩ := h1
  obtain ⟨q1, q2, q3, q4⟩ := h2
  have t1 : a1.recType ≠ lit "revisit" := by rw [p2]; decide
  have t2 : a2.recType ≠ lit "revisit" := by rw [q2]; decide
  have x1 : DictFits a1.uri a1.dict := by rw [p4]; exact own_fits hown _
  have x2 : DictFits a2.uri a2.dict := by rw [q4]; exact own_fits hown _
  obtain ⟨-, -, -, n1⟩ := C48_headers_partial hd1.1 hd1.2 p1 x1.type x1.uri x1.id x1.date k1.created
  obtain ⟨-, -, -, n2⟩ := C48_headers_partial hd2.1 hd2.2 q1 x2.type x2.uri x2.id x2.date k2.created
  rw [p2, p3, p4] at n1
  rw [q2, q3, q4] at n2
  have v0 : ∀ {n : Str}, named n dict = [] → values n dict = [] := by
    intro n hn
    unfold values
    rw [hn]
    rfl
  have u1 := n1.uri
  have u2 := n2.uri
  have i1 := n1.id
  have i2 := n2.id
  obtain ⟨T1, -, m1⟩ := n1.date
  obtain ⟨T2, -, m2⟩ := n2.date
  rw [if_neg hu] at u1 u2
  rw [if_pos (v0 (own_none hown (by simp)))] at i1 i2 m1 m2
  obtain ⟨hb1, w1, e1'⟩ := k1.writable
  obtain ⟨hb2, w2, e2'⟩ := k2.writable
  obtain ⟨R, l1, w1', r2, r3, r4, -, g1, g2, g3, g4, g5⟩ := linked_facts w1 (first_of u2).1 (first_of m2).1 (first_of u1).2 (first_of m1).2 f
  obtain ⟨z, z', req', resp', z1, z2, z3⟩ := pair_stored D H w2 w1' l1 ho
  have new := created_inFile hd2.1 hd2.2 q1 x2 t2 k2 e2'
  rw [q2, q3, q4] at new
  refine ⟨R, hb1, hb2, z, z', req', resp', l1, e1', e2', w1', z1, z2, z3, new, ?_⟩
  have keep : ∀ {n : Str}, n ∈ [lit "WARC-Type", lit "WARC-Record-ID", lit "Content-Length", lit "WARC-Block-Digest", lit "WARC-Payload-Digest"] →
      named n R.recHeaders.headers = named n req.recHeaders.headers := by
    intro n hn
    simp only [List.mem_cons, List.not_mem_nil, or_false] at hn
    rcases hn with rfl | rfl | rfl | rfl | rfl <;>
      exact g5 _ (differ (by decide) (by decide) (by decide)) (differ (by decide) (by decide) (by decide)) (differ (by decide) (by decide) (by decide))
  have md := created_digests t1 k1
  rw [p4, p2] at md
  have md' : MadeDigests f dict (lit "request") d1 R.recHeaders.headers :=
    ⟨(keep (by simp)).trans md.length, (keep (by simp)).trans md.block, fun h => (keep (by simp)).trans (md.payload h)⟩
  obtain ⟨y1, y2, y3⟩ := written_made (hb := hb1) (r4.trans (k1.recType.trans (by rw [p2]))) (by decide) md'
  rw [← e1'] at y1 y2
  have kv : ∀ {n : Str}, named n R.recHeaders.headers = named n req.recHeaders.headers → values n R.recHeaders.headers = values n req.recHeaders.headers := by
    intro n hn
    unfold values
    rw [hn]
  refine ⟨?_, g1, ?_, ?_, ?_, y1 (own_fits hown u).length, y2 (v0 (own_none hown (by simp))), ?_, ?_⟩
  · rw [written_values f R hb1 d1 (own_differ (by simp)), kv (keep (by simp)), n1.type]
  · rw [g2, written_values f resp hb2 d2 (own_differ (by simp)), m2]
  · rw [written_values f R hb1 d1 (own_differ (by simp)), kv (keep (by simp)), i1]
  · have hc : named (lit "WARC-Concurrent-To") req.recHeaders.headers = [] := by
      rw [k1.headers, named_append, initList_named ⟨differ (by decide) (by decide) (by decide), differ (by decide) (by decide) (by decide), differ (by decide) (by decide) (by decide),
        differ (by decide) (by decide) (by decide)⟩, p4, own_none hown (by simp)]
      unfold newDigests
      split
      · simp only [Bool.false_eq_true, if_false, List.append_nil]
        exact named_other (differ (by decide) (by decide) (by decide)) _
      · simp [named]
    rw [written_values f resp hb2 d2 (own_differ (by simp)), i2]
    unfold values
    rw [g3 _ hid (first_of i2).1, hc]
    rfl
  · rw [y3 (v0 (own_none hown (by simp)))]
    rfl
  · refine (without_more (fun n hn => ?_) g4).trans (without_more (fun n hn => ?_) n1.others)
    · simp only [List.mem_append, List.mem_cons, List.not_mem_nil, or_false] at hn ⊢
      rcases hn with h | h | h | h
      · exact .inl (.inr h)
      · exact .inl (.inl (by rw [h]; simp [madeNames]))
      · exact .inl (.inl (by rw [h]; simp [madeNames]))
      · exact .inr h
    · simp only [List.mem_append]
      exact .inl (.inl hn)

theorem created_pair (D : LawfulDeflater IsMember) {f : Bytes → Bytes} (H : Hashlib.hash (lit "sha1") = some f) {e1 e2 : Env} (hd1 : IsDate e1.now ∧ e1.now.aware = false)
    (hd2 : IsDate e2.now ∧ e2.now.aware = false) (hid : e2.newId ≠ []) {a1 a2 : CreateArgs FileObj} {u : Str} {dict : List Header} (hu : u ≠ []) (hown : OwnHeaders dict)
    (h1 : a1.headers = none ∧ a1.recType = lit "request" ∧ a1.uri = u ∧ a1.dict = dict) (h2 : a2.headers = none ∧ a2.recType = lit "response" ∧ a2.uri = u ∧ a2.dict = dict)
    {b1 d1 b2 d2 : Bytes} {req resp : OutRecord FileObj} (k1 : CreatedReady c f e1 a1 b1 d1 req) (k2 : CreatedReady c f e2 a2 b2 d2 resp) {o : OutFile} (ho : o.AtEnd) :
    ∃ z z' hs hs' req' resp', writePair c req resp o = (.ok (), req', resp', o.extended (z ++ z')) ∧
      Stored IsMember c.gzip z (recordBytes c.version [] hs b2) ∧ Stored IsMember c.gzip z' (recordBytes c.version [] hs' b1) ∧
      NewInFile f c.version e2 u (lit "response") dict b2 d2 hs ∧ LinkedRequest f u e1 dict b1 d1 hs hs' := by
  obtain ⟨R, hb1, hb2, z, z', req', resp', l, e1', e2', -, k, z2, z3, q1, q2⟩ := created_linked D H hd1 hd2 hid hu hown h1 h2 k1 k2 ho
  obtain ⟨r1, r2, r3, -⟩ := link_same l
  have bl2 : blockOf resp hb2 d2 = b2 := by
    unfold blockOf
    rw [k2.recType, h2.2.1, if_neg (by decide), e2']
  have bl1 : blockOf R hb1 d1 = b1 := by
    unfold blockOf
    rw [r3, k1.recType, h1.2.1, if_neg (by decide), e1']
  rw [bl2, k2.version.1, k2.version.2] at z2
  rw [bl1, r1, r2, k1.version.1, k1.version.2] at z3
  exact ⟨z, z', _, _, req', resp', k, z2, z3, q1, q2⟩

/-- The file is at its end after everything. -/
theorem run_atEnd {s : State τ} (hs : s.out.AtEnd) (es : List (Event τ)) : (run c flt s es).2.out.AtEnd :=
  run_keeps (P := fun s => s.out.AtEnd) (Q := fun _ => True) (fun s e hs _ => by obtain ⟨b, h⟩ := step_appends (c := c) (flt := flt) s e hs; rw [h]; exact extended_atEnd _ _) hs
    (fun _ _ => trivial)

theorem store_pair {r : Recorder} {envs : Env × Env} {req resp : OutRecord FileObj} (c1 : r.createRecord c envs.1 r.requestOut (lit "request") = .ok req)
    (c2 : r.createRecord c envs.2 r.responseOut (lit "response") = .ok resp) (ha : ∀ g, flt = some g → g req resp r = (some req, some resp)) (o : OutFile) :
    r.store c flt envs o = ((writePair c req resp o).1, (writePair c req resp o).2.2.2) := by
  unfold Recorder.store
  rw [c1, c2]
  dsimp only
  cases flt with
  | none => rfl
  | some g => simp only [ha g rfl]

/-- What is created when a response is closed, and that it is written. -/
theorem exchange_created {f : Bytes → Bytes} (H : Hashlib.hash (lit "sha1") = some f) (hf : c.filter = some) (hv : c.version ≠ [])
    {s0 : State τ} {before : List (Event τ)} {s s' : State τ} (hs : s = (run c flt s0 (before ++ [.start])).2)
    {evs : List (Event τ)} {xs : List (Except PyErr Result)} (hrun : run c flt s evs = (xs, s')) (hin : ∀ e ∈ evs, e.Inner) (hfull : ∀ x ∈ xs, Full x)
    {u : Str} (hu : s'.recorder.url = some u) (hw : lit "http:" <+: u ∨ lit "https:" <+: u) {h h' : StatusAndHeaders} {d d' : Bytes}
    (m : Message (lit "request") h d (sentBytes evs)) (m' : Message (lit "response") h' d' (receivedBytes xs)) {envs : Env × Env}
    (hacc : ∀ g req resp, flt = some g → s'.recorder.createRecord c envs.1 s'.recorder.requestOut (lit "request") = .ok req →
      s'.recorder.createRecord c envs.2 s'.recorder.responseOut (lit "response") = .ok resp → g req resp s'.recorder = (some req, some resp)) :
    ∃ req resp, CreatedReady c f envs.1 (exchangeArgs u (lit "request") (sentBytes evs) s'.recorder.headers) (sentBytes evs) d req ∧
      CreatedReady c f envs.2 (exchangeArgs u (lit "response") (receivedBytes xs) s'.recorder.headers) (receivedBytes xs) d' resp ∧
      ∀ {req' resp' o}, writePair c req resp s.out = (.ok (), req', resp', o) → (step c flt s' (.close envs)).1 = .ok .none ∧ (step c flt s' (.close envs)).2.out = o := by
  have hes : s.recorder.started = true ∧ s.recorder.requestOut = .opened [] ∧ s.recorder.responseOut = .opened [] := by
    rw [hs, run_append]
    exact ⟨rfl, rfl, rfl⟩
  have hb := run_buffers (c := c) (flt := flt) evs hes.1 hes.2.1 hes.2.2 hin (by rw [hrun]; exact hfull)
  rw [hrun] at hb
  obtain ⟨b1, b2, b3, b4⟩ := hb
  rw [List.nil_append] at b2 b3
  have mk : ∀ (env : Env) (recType : Str) (b : Bytes), s'.recorder.createRecord c env (.opened b) recType = Builder.createRecord c env (exchangeArgs u recType b s'.recorder.headers) := by
    intro env recType b
    unfold Recorder.createRecord
    dsimp only
    rw [hu]
    rfl
  obtain ⟨req, k1, -, -⟩ := created_message (c := c) (env := envs.1) (a := exchangeArgs u (lit "request") (sentBytes evs) s'.recorder.headers) H hf hv ⟨rfl, rfl⟩ rfl
    rfl (.inr ⟨rfl, rfl, rfl⟩) ⟨.inr (.inl rfl), u, rfl, hw⟩ m
  obtain ⟨resp, k2, -, -⟩ := created_message (c := c) (env := envs.2) (a := exchangeArgs u (lit "response") (receivedBytes xs) s'.recorder.headers) H hf hv ⟨rfl, rfl⟩ rfl
    rfl (.inr ⟨rfl, rfl, rfl⟩) ⟨.inl rfl, u, rfl, hw⟩ m'
  have c1 : s'.recorder.createRecord c envs.1 s'.recorder.requestOut (lit "request") = .ok req := by rw [b2, mk]; exact k1.created
  have c2 : s'.recorder.createRecord c envs.2 s'.recorder.responseOut (lit "response") = .ok resp := by rw [b3, mk]; exact k2.created
  refine ⟨req, resp, k1, k2, ?_⟩
  intro req' resp' o w1
  have hst : s'.recorder.store c flt envs s'.out = (.ok (), o) := by
    rw [store_pair c1 c2 (fun g hg => hacc g req resp hg c1 c2), b4, w1]
  have hdone : s'.recorder.done c flt envs s'.out = (.ok (), { s'.recorder with requestOut := .closed, responseOut := .closed }, o) := by
    unfold Recorder.done
    rw [if_pos b1, hst]
  refine ⟨?_, ?_⟩
  · rw [step, hdone]
    rfl
  · rw [step, hdone]

theorem own_run {s0 : State τ} (hs0 : OwnHeaders s0.recorder.headers) (es : List (Event τ)) : OwnHeaders (run c flt s0 es).2.recorder.headers :=
  run_keeps (c := c) (flt := flt) (P := fun s => OwnHeaders s.recorder.headers) (Q := fun _ => True) (fun s e h _ => own_step s e h) hs0 (fun _ _ => trivial)

theorem http_nonempty {u : Str} (hw : lit "http:" <+: u ∨ lit "https:" <+: u) : u ≠ [] := by
  rintro rfl
  rcases hw with hw | hw
  · exact absurd hw (by decide)
  · exact absurd hw (by decide)

/-- C62: after anything else, a request is started, bytes are sent and received in any pieces, by
any calls of `read`, `readline` and `readinto` and in any order, and the response is closed.  Then
exactly two records are added to the file, plain or compressed: first the response with the bytes
received, then the request with the bytes sent, both with the URL and the headers of the recorder.
Partial: `readinto` fills its buffer (see `C62_readinto`), the bytes are HTTP messages whose headers
are as the library writes them (see `C62_unknown_verb` and C66), and the filter accepts the pair. -/
theorem C62_exchange_partial (D : LawfulDeflater IsMember) {f : Bytes → Bytes} (H : Hashlib.hash (lit "sha1") = some f) (hf : c.filter = some) (hv : c.version ≠ [])
    {s0 : State τ} (hs0 : s0.recorder.headers = []) (ho : s0.out.AtEnd) {before : List (Event τ)} {s s' : State τ} (hs : s = (run c flt s0 (before ++ [.start])).2)
    {evs : List (Event τ)} {xs : List (Except PyErr Result)} (hrun : run c flt s evs = (xs, s')) (hin : ∀ e ∈ evs, e.Inner) (hfull : ∀ x ∈ xs, Full x)
    {u : Str} (hu : s'.recorder.url = some u) (hw : lit "http:" <+: u ∨ lit "https:" <+: u) {h h' : StatusAndHeaders} {d d' : Bytes}
    (m : Message (lit "request") h d (sentBytes evs)) (m' : Message (lit "response") h' d' (receivedBytes xs)) {envs : Env × Env}
    (hd1 : IsDate envs.1.now ∧ envs.1.now.aware = false) (hd2 : IsDate envs.2.now ∧ envs.2.now.aware = false) (hid : envs.2.newId ≠ [])
    (hacc : ∀ g req resp, flt = some g → s'.recorder.createRecord c envs.1 s'.recorder.requestOut (lit "request") = .ok req →
      s'.recorder.createRecord c envs.2 s'.recorder.responseOut (lit "response") = .ok resp → g req resp s'.recorder = (some req, some resp)) :
    ∃ z z' hs hs', (step c flt s' (.close envs)).1 = .ok .none ∧ (step c flt s' (.close envs)).2.out = s.out.extended (z ++ z') ∧
      Stored IsMember c.gzip z (recordBytes c.version [] hs (receivedBytes xs)) ∧ Stored IsMember c.gzip z' (recordBytes c.version [] hs' (sentBytes evs)) ∧
      NewInFile f c.version envs.2 u (lit "response") s'.recorder.headers (receivedBytes xs) d' hs ∧
      LinkedRequest f u envs.1 s'.recorder.headers (sentBytes evs) d hs hs' := by
  have hown : OwnHeaders s'.recorder.headers := by
    have k := own_run (c := c) (flt := flt) (s0 := s0) (by rw [hs0]; intro x hx; cases hx) (before ++ [.start])
    rw [← hs] at k
    have k := own_run (c := c) (flt := flt) k evs
    rw [hrun] at k
    exact k
  have hat : s.out.AtEnd := by rw [hs]; exact run_atEnd ho _
  obtain ⟨req, resp, k1, k2, k3⟩ := exchange_created (envs := envs) H hf hv hs hrun hin hfull hu hw m m' hacc
  obtain ⟨z, z', hs1, hs2, req', resp', w1, w2, w3, w4, w5⟩ := created_pair D H hd1 hd2 hid (http_nonempty hw) hown ⟨rfl, rfl, rfl, rfl⟩ ⟨rfl, rfl, rfl, rfl⟩ k1 k2 hat
  obtain ⟨q1, q2⟩ := k3 w1
  exact ⟨z, z', hs1, hs2, q1, q2, w2, w3, w4, w5⟩

/-- C62: if the filter rejects a pair, whatever the state, nothing is written. -/
theorem C62_rejected (s : State τ) (envs : Env × Env) {g : Recorder.Filter} (hg : flt = some g)
    (hrej : ∀ req resp, (g req resp s.recorder).1 = none ∨ (g req resp s.recorder).2 = none) : (step c flt s (.close envs)).2.out = s.out := by
  subst hg
  rw [step]
  show (s.recorder.done c (some g) envs s.out).2.2 = _
  unfold Recorder.done
  split
  · show (s.recorder.store c (some g) envs s.out).2 = _
    unfold Recorder.store
    split
    · rfl
    · split
      · rfl
      · rename_i req _ _ resp _
        dsimp only
        have := hrej req resp
        generalize g req resp s.recorder = x at this
        obtain ⟨x, y⟩ := x
        rcases this with h | h
        · cases h
          rfl
        · cases h
          cases x <;> rfl
  · rfl

/-- C62: nothing but closing a response writes to the file. -/
theorem C62_only_close (s : State τ) {evs : List (Event τ)} (h : ∀ e ∈ evs, ∀ envs, e ≠ .close envs) : (run c flt s evs).2.out = s.out := by
  refine run_keeps (P := fun t => t.out = s.out) (Q := fun e => ∀ envs, e ≠ .close envs) ?_ rfl h
  intro t e ht he
  cases e with
  | close envs => exact absurd rfl (he envs)
  | read n =>
    rw [step]
    generalize PyStream.read t.fp n = x
    obtain ⟨x, fp⟩ := x
    cases x <;> exact ht
  | readline n =>
    rw [step]
    generalize PyStream.readline t.fp n = x
    obtain ⟨x, fp⟩ := x
    cases x <;> exact ht
  | readinto n =>
    rw [step]
    generalize PyStream.read t.fp _ = x
    obtain ⟨x, fp⟩ := x
    cases x <;> exact ht
  | _ => exact ht

omit [Hashlib] [Deflater] in
/-- Setting a header of a dictionary with own headers: what is said about the address. -/
theorem ip_set {hs : List Header} (h : OwnHeaders hs) (v : Str) : values (lit "WARC-IP-Address") (Recorder.setItem hs (lit "WARC-IP-Address") v) =
      v :: (values (lit "WARC-IP-Address") hs).tail ∧
    values (lit "WARC-IP-Address") (Recorder.setItem hs (lit "WARC-Proxy-Host") v) = values (lit "WARC-IP-Address") hs := by
  have hne : (PyUni.lower (lit "WARC-Proxy-Host") == PyUni.lower (lit "WARC-IP-Address")) = false := by
    simpa using (differ (by decide) (by decide) (by decide) : PyUni.lower (lit "WARC-Proxy-Host") ≠ PyUni.lower (lit "WARC-IP-Address"))
  have e1 : ∀ w t, values (lit "WARC-IP-Address") ((lit "WARC-IP-Address", w) :: t) = w :: values (lit "WARC-IP-Address") t := by
    intro w t
    simp [values, named]
  have e2 : ∀ w t, values (lit "WARC-IP-Address") ((lit "WARC-Proxy-Host", w) :: t) = values (lit "WARC-IP-Address") t := by
    intro w t
    simp [values, named, hne]
  have n1 : ¬ lit "WARC-IP-Address" = lit "WARC-Proxy-Host" := by decide
  have n2 : ¬ lit "WARC-Proxy-Host" = lit "WARC-IP-Address" := by decide
  induction hs with
  | nil => exact ⟨by rw [Recorder.setItem, e1]; rfl, by rw [Recorder.setItem, e2]⟩
  | cons y ys ih =>
    obtain ⟨k, w⟩ := y
    have hk : k = lit "WARC-IP-Address" ∨ k = lit "WARC-Proxy-Host" := h (k, w) (List.mem_cons_self ..)
    obtain ⟨i1, i2⟩ := ih (fun x hx => h x (List.mem_cons_of_mem _ hx))
    rw [Recorder.setItem, Recorder.setItem]
    rcases hk with rfl | rfl
    · rw [if_pos rfl, if_neg n1, e1, e1, e1, i2]
      exact ⟨rfl, rfl⟩
    · rw [if_neg n2, if_pos rfl, e2, e2, e2, i1]
      exact ⟨rfl, rfl⟩

theorem ip_step (s : State τ) (e : Event τ) (hr : s.recorder.recordIp = true) (hs : OwnHeaders s.recorder.headers) {o : Option Str}
    (hv : values (lit "WARC-IP-Address") s.recorder.headers = o.toList) :
    (step c flt s e).2.recorder.recordIp = true ∧ values (lit "WARC-IP-Address") (step c flt s e).2.recorder.headers = ((lastIp [e]).or o).toList := by
  have same : ∀ {a b hs'}, (step c flt s e).2.recorder = { s.recorder with requestOut := a, responseOut := b, headers := hs' } → hs' = s.recorder.headers → lastIp [e] = none →
      (step c flt s e).2.recorder.recordIp = true ∧ values (lit "WARC-IP-Address") (step c flt s e).2.recorder.headers = ((lastIp [e]).or o).toList := by
    intro a b hs' h1 h2 h3
    rw [h1, h3, h2]
    exact ⟨hr, hv⟩
  cases e with
  | tunnel => exact ⟨hr, hv⟩
  | start => exact ⟨hr, hv⟩
  | line data host port default =>
    rw [step_line]
    show _ ∧ _ = o.toList
    unfold Recorder.extractUrl
    split
    · exact ⟨hr, hv⟩
    · dsimp only
      split
      · exact ⟨hr, hv⟩
      · split
        · unfold Recorder.setConnect
          dsimp only
          split
          · exact ⟨hr, hv⟩
          · exact ⟨hr, (ip_set hs _).2.trans hv⟩
        · unfold Recorder.setUrl
          dsimp only
          split
          · exact ⟨hr, (ip_set hs _).2.trans hv⟩
          · exact ⟨hr, hv⟩
  | sent b => obtain ⟨x, h⟩ := step_sent (c := c) (flt := flt) (s := s) (b := b); exact same h rfl rfl
  | response fp ip =>
    show (s.recorder.setRemoteIp ip).recordIp = true ∧ values _ (s.recorder.setRemoteIp ip).headers = _
    unfold Recorder.setRemoteIp
    rw [hr]
    cases ip with
    | none => exact ⟨hr, hv⟩
    | some ip =>
      by_cases hi : ip = []
      · subst hi
        exact ⟨hr, hv⟩
      · have : (!((some ip).getD []).isEmpty) = true := by simpa using hi
        rw [this, Bool.and_self, if_pos rfl]
        refine ⟨rfl, (ip_set hs _).1.trans ?_⟩
        rw [hv]
        show _ = ((if ip = [] then none else some ip : Option Str).or o).toList
        rw [if_neg hi]
        cases o <;> rfl
  | read n => obtain ⟨x, h⟩ := step_read (c := c) (flt := flt) (s := s) (n := n); exact same h rfl rfl
  | readline n => obtain ⟨x, h⟩ := step_readline (c := c) (flt := flt) (s := s) (n := n); exact same h rfl rfl
  | readinto n => obtain ⟨x, h⟩ := step_readinto (c := c) (flt := flt) (s := s) (b := n); exact same h rfl rfl
  | close envs => obtain ⟨a, b, h⟩ := step_close (c := c) (flt := flt) (s := s) (envs := envs); exact same h rfl rfl

omit [PyStream τ] [PyUni] [Hashlib] [Deflater] in
theorem lastIp_cons (e : Event τ) (es : List (Event τ)) : lastIp (e :: es) = (lastIp es).or (lastIp [e]) := by
  cases e with
  | response fp ip =>
    cases ip with
    | none => exact Option.or_none.symm
    | some ip => rfl
  | _ => exact Option.or_none.symm

/-- C62: the address in the recorder's headers, and so in the records, is the last one that was
known, over the whole capture. -/
theorem C62_address {evs : List (Event τ)} : ∀ {s : State τ} {o : Option Str}, s.recorder.recordIp = true → OwnHeaders s.recorder.headers →
    values (lit "WARC-IP-Address") s.recorder.headers = o.toList →
    values (lit "WARC-IP-Address") (run c flt s evs).2.recorder.headers = ((lastIp evs).or o).toList := by
  induction evs with
  | nil => intro s o _ _ hv; exact hv
  | cons e es ih =>
    intro s o hr hs hv
    obtain ⟨k1, k2⟩ := ip_step (c := c) (flt := flt) s e hr hs hv
    rw [run_cons, ih k1 (own_step s e hs) k2, lastIp_cons e es, Option.or_assoc]

end

/-! ## Concrete cases -/

section
open Toy

/-- A request. -/
def cSent : Bytes := utf8Encode (lit "GET /x HTTP/1.1\r\nHost: a\r\n\r\n")

/-- A new recorder with an empty file. -/
def cNew : State FileObj := { fp := { content := [] } }

/-- A writer without compression. -/
def cPlain : BuilderCfg := { gzip := false }

/-- Sending a request and reading the response. -/
def cEvents : List (Event FileObj) := Capture.send cSent (lit "a") 80 80 ++ [.response { content := mBytes } (some (lit "1.2.3.4")), .readline none, .read none]

/-- The request parsed. -/
def cHttp : StatusAndHeaders := { protocol := lit "GET", statusline := lit "/x HTTP/1.1", headers := [(lit "Host", lit "a")] }

/-- What the calls return. -/
def cResults : List (Except PyErr Result) :=
  [.ok .none, .ok .none, .ok .none, .ok (.bytes (utf8Encode (lit "HTTP/1.0 200 OK\r\n"))), .ok (.bytes (utf8Encode (lit "A: b\r\n\r\nabc")))]

/-- What follows the first header block. -/
def cBlock : Bytes → Bytes
  | 13 :: 10 :: 13 :: 10 :: t => t
  | _ :: t => cBlock t
  | [] => []

theorem c_message : Message (lit "request") cHttp [] cSent where
  bytes := by decide +kernel
  regular := {
    protocol := ⟨by decide, by decide, by decide, by decide⟩
    status := ⟨by decide, by decide⟩
    headers := by
      intro x hx
      rw [show cHttp.headers = [(lit "Host", lit "a")] from rfl, List.mem_singleton] at hx
      subst hx
      exact { name_lf := by decide, name_colon := by decide, name_end := by decide, value_lf := by decide, value_end := by decide, name_start := by decide, value_start := by decide }
    truthy := .inl (by decide) }
  ascii := by decide +kernel
  known := by decide

/-- The hypotheses of C61 hold. -/
example : RequestLine cSent (lit "GET") (lit "/x") ∧ lit "GET" ≠ lit "CONNECT" ∧ (∀ e ∈ cEvents, ¬ e.Connects) ∧ urlOf (lit "a") 8080 80 (lit "/x") = lit "http://a:8080/x" := by
  refine ⟨⟨by decide, by decide, lit " HTTP/1.1\r\n", by decide +kernel, .inr rfl⟩, by decide, ?_, by decide +kernel⟩
  intro e he
  simp only [cEvents, Capture.send, List.cons_append, List.nil_append, List.mem_cons, List.not_mem_nil, or_false] at he
  rcases he with rfl | rfl | rfl | rfl | rfl
  · rintro ⟨t, ht⟩
    have : (latin1Decode (takeLine cSent)).take 3 = lit "GET" := by decide +kernel
    rw [ht] at this
    exact absurd this (by show ¬ lit "CON" = lit "GET"; decide)
  all_goals exact id

/-- The hypotheses of `C61_tunnel` hold. -/
example : RequestLine (utf8Encode (lit "CONNECT b:443 HTTP/1.0\r\n\r\n")) (lit "CONNECT") (lit "b" ++ ':' :: intToStr 443) ∧ ':' ∉ lit "b" :=
  ⟨⟨by decide, by decide, lit " HTTP/1.0\r\n", by decide +kernel, .inr rfl⟩, by decide⟩

/-- The hypotheses of C62 hold. -/
example : ∃ xs s', run cPlain none (run cPlain none cNew ([] ++ [.start])).2 cEvents = (xs, s') ∧ (∀ e ∈ cEvents, e.Inner) ∧ (∀ x ∈ xs, Full x) ∧
    s'.recorder.url = some (lit "http://a/x") ∧ Message (lit "request") cHttp [] (sentBytes cEvents) ∧ Message (lit "response") wHttp [97, 98, 99] (receivedBytes xs) ∧
    s'.recorder.headers = [(lit "WARC-IP-Address", lit "1.2.3.4")] := by
  refine ⟨cResults, _, Prod.ext (by decide +kernel) rfl, ?_, ?_, by decide +kernel, ?_, ?_, by decide +kernel⟩
  · intro e he
    simp only [cEvents, Capture.send, List.cons_append, List.nil_append, List.mem_cons, List.not_mem_nil, or_false] at he
    rcases he with rfl | rfl | rfl | rfl | rfl <;> trivial
  · intro x hx
    simp only [cResults, List.mem_cons, List.not_mem_nil, or_false] at hx
    rcases hx with rfl | rfl | rfl | rfl | rfl <;> trivial
  · have : sentBytes cEvents = cSent := by decide +kernel
    rw [this]
    exact c_message
  · have : receivedBytes cResults = mBytes := by decide +kernel
    rw [this]
    exact m_message

/-- What C62 is about, computed. -/
example : (run cPlain none cNew (.start :: cEvents ++ [.close (wEnv, wEnv)])).1.getLast? = some (.ok .none) ∧
    (cBlock (run cPlain none cNew (.start :: cEvents ++ [.close (wEnv, wEnv)])).2.out.content).take 32 = mBytes ++ [13, 10, 13, 10] := by decide +kernel

/-- The hypotheses of `C62_rejected`, `C62_only_close` and `C62_address` hold; with a filter that
rejects everything the file stays empty. -/
example : (∀ req resp, ((fun _ _ _ => (none, none) : Recorder.Filter) req resp cNew.recorder).1 = none ∨ ((fun _ _ _ => (none, none) : Recorder.Filter) req resp cNew.recorder).2 = none) ∧
    (run cPlain (some (fun _ _ _ => (none, none))) cNew (.start :: cEvents ++ [.close (wEnv, wEnv)])).2.out = {} ∧
    cNew.recorder.recordIp = true ∧ OwnHeaders cNew.recorder.headers ∧ values (lit "WARC-IP-Address") cNew.recorder.headers = (none : Option Str).toList ∧
    lastIp cEvents = some (lit "1.2.3.4") :=
  ⟨fun _ _ => .inl rfl, by decide +kernel, rfl, fun _ h => (nomatch h), rfl, by decide +kernel⟩

/-- A tunnel to `b:443` through the proxy `p:3128`. -/
def cTunnel : List (Event FileObj) := .tunnel :: Capture.send (utf8Encode (lit "CONNECT b:443 HTTP/1.0\r\n\r\n")) (lit "p") 3128 443

/-- C61 fails after a tunnel: its host is not forgotten when a request over another connection
starts, so that a request to `a` is recorded with the host `b` (and its port). -/
theorem C61_stays : (run cPlain none cNew (cTunnel ++ .start :: cEvents)).2.recorder.url = some (lit "http://b:443/x") ∧
    urlOf (lit "a") 80 80 (lit "/x") = lit "http://a/x" := by decide +kernel

/-- C61 fails for addresses of IPv6: a tunnel to one of them makes `send` raise a `ValueError`, and
the URL of a direct request lacks the brackets. -/
theorem C61_ipv6 : (step cPlain none cNew (.line (utf8Encode (lit "CONNECT [::1]:443 HTTP/1.0\r\n\r\n")) (lit "p") 3128 443)).1 = .error .valueError ∧
    (run cPlain none cNew (.start :: Capture.send cSent (lit "::1") 80 80)).2.recorder.url = some (lit "http://::1/x") := by decide +kernel

/-- C61 fails if the data is sent in pieces that split the request line: here the URL ends where
the first piece does. -/
theorem C61_pieces : (run cPlain none cNew (.start :: (Capture.send (cSent.take 5) (lit "a") 80 80 ++ Capture.send (cSent.drop 5) (lit "a") 80 80))).2.recorder.url =
      some (lit "http://a/") ∧ sentBytes (Capture.send (τ := FileObj) (cSent.take 5) (lit "a") 80 80 ++ Capture.send (cSent.drop 5) (lit "a") 80 80) = cSent := by decide +kernel

/-- C62 fails for `readinto` with a buffer that is not filled: 28 bytes are received, and all 32 of
the buffer are recorded. -/
theorem C62_readinto :
    (run cPlain none cNew (.start :: Capture.send cSent (lit "a") 80 80 ++ [.response { content := mBytes } none, .readinto (List.replicate 32 120)])).1.getLast? =
      some (.ok (.into 28 (mBytes ++ [120, 120, 120, 120]))) ∧
    (cBlock (run cPlain none cNew (.start :: Capture.send cSent (lit "a") 80 80 ++ [.response { content := mBytes } none, .readinto (List.replicate 32 120), .close (wEnv, wEnv)])).2.out.content).take 36 =
      mBytes ++ [120, 120, 120, 120] ++ [13, 10, 13, 10] := by decide +kernel

/-- C62 fails for two exchanges at the same time, which share the recorder: the second request
starts before the response to the first is read, and the first response is recorded with the second
URL; the bytes of the first request are lost. -/
theorem C62_shared :
    (run cPlain none cNew (.start :: Capture.send cSent (lit "a") 80 80 ++ .start :: Capture.send cSent (lit "b") 80 80 ++ [.response { content := mBytes } none, .read none])).2.recorder.url =
      some (lit "http://b/x") ∧
    (run cPlain none cNew (.start :: Capture.send cSent (lit "a") 80 80 ++ .start :: Capture.send cSent (lit "b") 80 80 ++ [.response { content := mBytes } none, .read none])).2.recorder.requestOut =
      .opened cSent := by decide +kernel

/-- C62 fails for a tunnel that `http.client` opens while it sends the request: `send` notes the
request line, connects, and opening the tunnel ends the recording.  Nothing is written. -/
theorem C62_lazy_tunnel :
    (run cPlain none cNew (.start :: .line cSent (lit "p") 3128 443 :: cTunnel ++ [.sent cSent, .response { content := mBytes } none, .read none, .close (wEnv, wEnv)])).2.out = {} := by
  decide +kernel

/-- C62 fails for what is said about the connection: the address of an earlier response stays in
the headers if that of the next response is not known. -/
theorem C62_stale_address :
    (run cPlain none cNew (.start :: cEvents ++ .close (wEnv, wEnv) :: .start :: Capture.send cSent (lit "b") 80 80 ++ [.response { content := mBytes } none])).2.recorder.headers =
      [(lit "WARC-IP-Address", lit "1.2.3.4")] := by decide +kernel

/-- C62 fails for verbs that the library does not know: closing the response raises, and nothing is
written, neither the request nor the response. -/
theorem C62_unknown_verb :
    (run cPlain none cNew (.start :: Capture.send (utf8Encode (lit "PROPFIND / HTTP/1.1\r\n\r\n")) (lit "a") 80 80 ++
      [.response { content := mBytes } none, .read none, .close (wEnv, wEnv)])).1.getLast? = some (.error (.statusParser (lit "PROPFIND / HTTP/1.1\r\n"))) ∧
    (run cPlain none cNew (.start :: Capture.send (utf8Encode (lit "PROPFIND / HTTP/1.1\r\n\r\n")) (lit "a") 80 80 ++
      [.response { content := mBytes } none, .read none, .close (wEnv, wEnv)])).2.out = {} := by decide +kernel

end
end Warcio.Props
