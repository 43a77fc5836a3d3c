import Verif.Spec.Capture
import Verif.Proofs.WriteCalls

/-!
# Runs of the recorder
-/

set_option linter.unusedSectionVars false

namespace Warcio.Capture

section
variable {τ : Type} [PyStream τ] [PyUni] [Hashlib] [Deflater] {c : BuilderCfg} {flt : Option Recorder.Filter}

theorem run_append (s : State τ) (xs ys : List (Event τ)) : run c flt s (xs ++ ys) =
    ((run c flt s xs).1 ++ (run c flt (run c flt s xs).2 ys).1, (run c flt (run c flt s xs).2 ys).2) := by
  induction xs generalizing s with
  | nil => rfl
  | cons x xs ih =>
    rw [List.cons_append, run, run]
    generalize step c flt s x = y
    obtain ⟨a, s1⟩ := y
    dsimp only
    rw [ih s1]
    rfl

theorem run_cons (s : State τ) (e : Event τ) (es : List (Event τ)) : (run c flt s (e :: es)).2 = (run c flt (step c flt s e).2 es).2 := rfl

/-- A property of states that every event keeps. -/
theorem run_keeps {P : State τ → Prop} {Q : Event τ → Prop} (hP : ∀ s e, P s → Q e → P (step c flt s e).2) {s : State τ} (hs : P s) {es : List (Event τ)}
    (he : ∀ e ∈ es, Q e) : P (run c flt s es).2 := by
  induction es generalizing s with
  | nil => exact hs
  | cons e es ih =>
    rw [run]
    exact ih (hP s e hs (he e (by simp))) (fun x hx => he x (by simp [hx]))

/-- What an event does to the recorder, except for its buffers. -/
theorem record_recorder (s : State τ) (fp : τ) (b : Bytes) (r : Result) : ∃ o, (record s fp b r).2.recorder = { s.recorder with responseOut := o } := by
  unfold record Recorder.writeResponse
  dsimp only
  split
  · exact ⟨_, rfl⟩
  · exact ⟨s.recorder.responseOut, rfl⟩

theorem step_read {s : State τ} {n : Option Int} : ∃ o, (step c flt s (.read n)).2.recorder = { s.recorder with responseOut := o } := by
  rw [step]
  generalize PyStream.read s.fp n = x
  obtain ⟨x, fp⟩ := x
  cases x with
  | error e => exact ⟨s.recorder.responseOut, rfl⟩
  | ok b => exact record_recorder s fp b _

theorem step_readline {s : State τ} {n : Option Int} : ∃ o, (step c flt s (.readline n)).2.recorder = { s.recorder with responseOut := o } := by
  rw [step]
  generalize PyStream.readline s.fp n = x
  obtain ⟨x, fp⟩ := x
  cases x with
  | error e => exact ⟨s.recorder.responseOut, rfl⟩
  | ok b => exact record_recorder s fp b _

theorem step_readinto {s : State τ} {b : Bytes} : ∃ o, (step c flt s (.readinto b)).2.recorder = { s.recorder with responseOut := o } := by
  rw [step]
  generalize PyStream.read s.fp (some (len b)) = x
  obtain ⟨x, fp⟩ := x
  cases x with
  | error e => exact ⟨s.recorder.responseOut, rfl⟩
  | ok b => exact record_recorder s fp _ _

theorem step_sent {s : State τ} {b : Bytes} : ∃ o, (step c flt s (.sent b)).2.recorder = { s.recorder with requestOut := o } := by
  rw [step]
  show ∃ o, (s.recorder.writeRequest b).2 = _
  unfold Recorder.writeRequest
  split
  · exact ⟨_, rfl⟩
  · exact ⟨s.recorder.requestOut, rfl⟩

theorem step_response {s : State τ} {fp : τ} {ip : Option Str} : ∃ hs, (step c flt s (.response fp ip)).2.recorder = { s.recorder with headers := hs } := by
  rw [step]
  show ∃ o, s.recorder.setRemoteIp ip = _
  unfold Recorder.setRemoteIp
  split
  · exact ⟨_, rfl⟩
  · exact ⟨s.recorder.headers, rfl⟩

theorem step_close {s : State τ} {envs : Env × Env} : ∃ a b, (step c flt s (.close envs)).2.recorder = { s.recorder with requestOut := a, responseOut := b } := by
  rw [step]
  show ∃ a b, (s.recorder.done c flt envs s.out).2.1 = _
  unfold Recorder.done
  split
  · exact ⟨_, _, rfl⟩
  · exact ⟨s.recorder.requestOut, s.recorder.responseOut, rfl⟩

/-- An event that is neither start nor tunnel nor a request line keeps everything but buffers and headers. -/
theorem step_keeps {s : State τ} {e : Event τ} (h1 : e ≠ .tunnel) (h2 : e ≠ .start) (h3 : e.NoLine) :
    ∃ a b hs, (step c flt s e).2.recorder = { s.recorder with requestOut := a, responseOut := b, headers := hs } := by
  cases e with
  | tunnel => exact absurd rfl h1
  | start => exact absurd rfl h2
  | line => exact absurd h3 id
  | sent b => obtain ⟨o, h⟩ := step_sent (c := c) (flt := flt) (s := s) (b := b); exact ⟨o, _, _, h⟩
  | response fp ip => obtain ⟨o, h⟩ := step_response (c := c) (flt := flt) (s := s) (fp := fp) (ip := ip); exact ⟨_, _, o, h⟩
  | read n => obtain ⟨o, h⟩ := step_read (c := c) (flt := flt) (s := s) (n := n); exact ⟨_, o, _, h⟩
  | readline n => obtain ⟨o, h⟩ := step_readline (c := c) (flt := flt) (s := s) (n := n); exact ⟨_, o, _, h⟩
  | readinto n => obtain ⟨o, h⟩ := step_readinto (c := c) (flt := flt) (s := s) (b := n); exact ⟨_, o, _, h⟩
  | close envs => obtain ⟨a, b, h⟩ := step_close (c := c) (flt := flt) (s := s) (envs := envs); exact ⟨a, b, _, h⟩

theorem step_line (s : State τ) (data : Bytes) (host : Str) (port default : Int) :
    (step c flt s (.line data host port default)).2.recorder = (s.recorder.extractUrl data host port default).2 := rfl

/-! ## Request lines -/

theorem split1_self {α} [DecidableEq α] {x : α} : ∀ {a b : List α}, x ∉ a → split1 x (a ++ x :: b) = (a, some b)
  | [], b, _ => by simp [split1]
  | y :: a, b, h => by
    have h1 : y ≠ x := fun e => h (by simp [e])
    rw [List.cons_append, split1, if_neg h1, split1_self (fun hc => h (by simp [hc]))]

theorem split1_none {α} [DecidableEq α] {x : α} : ∀ {a : List α}, x ∉ a → split1 x a = (a, none)
  | [], _ => by simp [split1]
  | y :: a, h => by
    have h1 : y ≠ x := fun e => h (by simp [e])
    rw [split1, if_neg h1, split1_none (fun hc => h (by simp [hc]))]

theorem extract_first {r : Recorder} (hr : r.firstLineRead = false) {data : Bytes} {verb target : Str} (h : RequestLine data verb target) (host : Str) (port default : Int) :
    r.extractUrl data host port default =
      if verb = lit "CONNECT" then ({ r with firstLineRead := true } : Recorder).setConnect target host port default
      else (.ok (), ({ r with firstLineRead := true } : Recorder).setUrl target host port default) := by
  obtain ⟨h1, h2, t, h3, h4⟩ := h
  have e2 : (split1 ' ' (target ++ t)).1 = target := by
    rcases h4 with rfl | h4
    · rw [List.append_nil, split1_none h2]
    · cases t with
      | nil => cases h4
      | cons x t =>
        cases h4
        rw [split1_self h2]
  unfold Recorder.extractUrl
  rw [hr]
  simp only [Bool.false_eq_true, if_false]
  rw [h3, List.append_assoc, List.cons_append, split1_self h1]
  dsimp only
  rw [e2]

/-! ## No tunnel -/

/-- There is no tunnel. -/
def Direct (s : State τ) : Prop := s.recorder.connectHost = none ∧ s.recorder.connectPort = none

theorem split1_eq {α} [DecidableEq α] {x : α} : ∀ {l a b : List α}, split1 x l = (a, some b) → l = a ++ x :: b
  | [], _, _, h => by simp [split1] at h
  | y :: l, a, b, h => by
    rw [split1] at h
    split at h
    · rename_i hy
      cases h
      rw [hy]; rfl
    · simp only [Prod.mk.injEq] at h
      obtain ⟨rfl, h⟩ := h
      have : split1 x l = ((split1 x l).1, some b) := by rw [← h]
      rw [List.cons_append, ← split1_eq this]

theorem direct_step (s : State τ) (e : Event τ) (hs : Direct s) (he : ¬ e.Connects) : Direct (step c flt s e).2 := by
  by_cases h1 : e = .tunnel
  · subst h1; exact ⟨rfl, rfl⟩
  by_cases h2 : e = .start
  · subst h2; exact hs
  cases e with
  | line data host port default =>
    unfold Direct
    rw [step_line]
    unfold Recorder.extractUrl
    split
    · exact hs
    · dsimp only
      split
      · exact hs
      · rename_i verb t hsp
        split
        · rename_i hv
          subst hv
          exact absurd ⟨t, (split1_eq hsp).trans (by rw [show lit "CONNECT " = lit "CONNECT" ++ [' '] from rfl, List.append_assoc]; rfl)⟩ he
        · unfold Recorder.setUrl
          dsimp only
          split <;> exact hs
  | _ =>
    obtain ⟨a, b, hs', h⟩ := step_keeps (c := c) (flt := flt) (s := s) h1 h2 trivial
    unfold Direct
    rw [h]
    exact hs

/-- A state after the first request line: the URL stays. -/
theorem url_keeps {u : Option Str} (s : State τ) (e : Event τ) (hs : s.recorder.firstLineRead = true ∧ s.recorder.url = u) (he : e ≠ .tunnel ∧ e ≠ .start) :
    (step c flt s e).2.recorder.firstLineRead = true ∧ (step c flt s e).2.recorder.url = u := by
  cases e with
  | line data host port default =>
    rw [step_line]
    unfold Recorder.extractUrl
    rw [if_pos hs.1]
    exact hs
  | _ =>
    obtain ⟨a, b, hs', h⟩ := step_keeps (c := c) (flt := flt) (s := s) he.1 he.2 trivial
    rw [h]
    exact hs

/-- Before the first request line. -/
theorem first_keeps {h : Option Str} {p : Option Int} (s : State τ) (e : Event τ)
    (hs : s.recorder.firstLineRead = false ∧ s.recorder.connectHost = h ∧ s.recorder.connectPort = p) (he : e ≠ .tunnel ∧ e ≠ .start ∧ e.NoLine) :
    (step c flt s e).2.recorder.firstLineRead = false ∧ (step c flt s e).2.recorder.connectHost = h ∧ (step c flt s e).2.recorder.connectPort = p := by
  obtain ⟨a, b, hs', k⟩ := step_keeps (c := c) (flt := flt) (s := s) he.1 he.2.1 he.2.2
  rw [k]
  exact hs

/-- Behind a first request line nothing changes the tunnel. -/
theorem tunnel_keeps {h : Option Str} {p : Option Int} (s : State τ) (e : Event τ)
    (hs : s.recorder.firstLineRead = true ∧ s.recorder.connectHost = h ∧ s.recorder.connectPort = p) (he : e ≠ .tunnel ∧ e ≠ .start) :
    (step c flt s e).2.recorder.firstLineRead = true ∧ (step c flt s e).2.recorder.connectHost = h ∧ (step c flt s e).2.recorder.connectPort = p := by
  cases e with
  | line data host port default =>
    rw [step_line]
    unfold Recorder.extractUrl
    rw [if_pos hs.1]
    exact hs
  | _ =>
    obtain ⟨a, b, hs', k⟩ := step_keeps (c := c) (flt := flt) (s := s) he.1 he.2 trivial
    rw [k]
    exact hs

theorem setUrl_url (r : Recorder) (target host : Str) (port default : Int) : (r.setUrl target host port default).url =
    some (urlOf (if (r.connectHost.getD []).isEmpty then host else r.connectHost.getD []) (if r.connectPort.getD 0 = 0 then port else r.connectPort.getD 0) default target) := by
  unfold Recorder.setUrl urlOf
  generalize (if (r.connectHost.getD []).isEmpty then host else r.connectHost.getD []) = h
  generalize (if r.connectPort.getD 0 = 0 then port else r.connectPort.getD 0) = p
  dsimp only
  have e : (startsWith (lit "http:") target || startsWith (lit "https:") target) = true ↔ (lit "http:" <+: target ∨ lit "https:" <+: target) := by
    unfold startsWith
    rw [Bool.or_eq_true, List.isPrefixOf_iff_prefix, List.isPrefixOf_iff_prefix]
  by_cases hh : lit "http:" <+: target ∨ lit "https:" <+: target
  · rw [if_pos (e.2 hh), if_pos hh]
  · rw [if_neg (fun x => hh (e.1 x)), if_neg hh]
    dsimp only
    have e2 : (if default = 443 then lit "https" else lit "http") ++ lit "://" = if default = 443 then lit "https://" else lit "http://" := by
      split <;> rfl
    rw [e2]
    by_cases hp : p = default
    · simp [hp]
    · simp only [hp, ne_eq, not_false_eq_true, if_true, if_false]
      rw [show lit ":" = [':'] from rfl]
      simp [List.append_assoc]

/-- The state before the first line of a request, and what the line does. -/
theorem url_at {s : State τ} (hs : s.recorder.firstLineRead = false) {data : Bytes} {verb target : Str} (hl : RequestLine data verb target) (hv : verb ≠ lit "CONNECT")
    (host : Str) (port default : Int) {post : List (Event τ)} (hpost : ∀ e ∈ post, e ≠ .tunnel ∧ e ≠ .start) :
    (run c flt s (.line data host port default :: post)).2.recorder.url =
      some (urlOf (if (s.recorder.connectHost.getD []).isEmpty then host else s.recorder.connectHost.getD [])
        (if s.recorder.connectPort.getD 0 = 0 then port else s.recorder.connectPort.getD 0) default target) := by
  rw [run]
  have hx : (step c flt s (.line data host port default)).2.recorder = ({ s.recorder with firstLineRead := true } : Recorder).setUrl target host port default := by
    rw [step_line, extract_first hs hl, if_neg hv]
  refine (run_keeps (url_keeps) ⟨?_, ?_⟩ hpost).2
  · rw [hx]
    unfold Recorder.setUrl
    dsimp only
    split <;> rfl
  · rw [hx, setUrl_url]

/-! ## Buffers -/

/-- What the buffers hold after events between start and close. -/
theorem run_buffers (es : List (Event τ)) : ∀ {s : State τ} {a b : Bytes}, s.recorder.started = true → s.recorder.requestOut = .opened a → s.recorder.responseOut = .opened b →
    (∀ e ∈ es, e.Inner) → (∀ x ∈ (run c flt s es).1, Full x) →
    (run c flt s es).2.recorder.started = true ∧ (run c flt s es).2.recorder.requestOut = .opened (a ++ sentBytes es) ∧
      (run c flt s es).2.recorder.responseOut = .opened (b ++ receivedBytes (run c flt s es).1) ∧ (run c flt s es).2.out = s.out := by
  induction es with
  | nil =>
    intro s a b h1 h2 h3 _ _
    exact ⟨h1, by simpa [run, sentBytes] using h2, by simpa [run, receivedBytes] using h3, rfl⟩
  | cons e es ih =>
    intro s a b h1 h2 h3 he hf
    rw [run] at hf ⊢
    dsimp only at hf ⊢
    have hx := hf (step c flt s e).1 (by simp)
    have hf' : ∀ x ∈ (run c flt (step c flt s e).2 es).1, Full x := fun x hx => hf x (by simp [hx])
    have he' : ∀ x ∈ es, x.Inner := fun x hx => he x (by simp [hx])
    have hrec : ∀ fp d r, record s fp d r = (.ok r, { s with recorder := { s.recorder with responseOut := .opened (b ++ d) }, fp := fp }) := by
      intro fp d r
      unfold record Recorder.writeResponse
      rw [if_pos h1, show s.recorder.responseOut.write d = (.ok (), .opened (b ++ d)) by rw [h3]; rfl]
      rfl
    cases e with
    | tunnel => exact absurd (he _ (List.mem_cons_self ..)) id
    | start => exact absurd (he _ (List.mem_cons_self ..)) id
    | close => exact absurd (he _ (List.mem_cons_self ..)) id
    | line data host port default =>
      have k : ∃ u v w x y, (step c flt s (.line data host port default)).2.recorder = { s.recorder with url := u, connectHost := v, connectPort := w, firstLineRead := x, headers := y } := by
        rw [step_line]
        unfold Recorder.extractUrl
        split
        · exact ⟨_, _, _, _, _, rfl⟩
        · dsimp only
          split
          · exact ⟨s.recorder.url, s.recorder.connectHost, s.recorder.connectPort, true, s.recorder.headers, rfl⟩
          · split
            · unfold Recorder.setConnect
              dsimp only
              split
              · exact ⟨s.recorder.url, _, s.recorder.connectPort, true, s.recorder.headers, rfl⟩
              · exact ⟨s.recorder.url, _, _, true, _, rfl⟩
            · unfold Recorder.setUrl
              dsimp only
              split
              · exact ⟨_, s.recorder.connectHost, s.recorder.connectPort, true, _, rfl⟩
              · exact ⟨_, s.recorder.connectHost, s.recorder.connectPort, true, s.recorder.headers, rfl⟩
      obtain ⟨u, v, w, x, y, k⟩ := k
      obtain ⟨i1, i2, i3, i4⟩ := ih (s := (step c flt s (.line data host port default)).2) (a := a) (b := b) (by rw [k]; exact h1) (by rw [k]; exact h2) (by rw [k]; exact h3) he' hf'
      refine ⟨i1, i2, ?_, i4⟩
      rw [i3]
      have : receivedBytes ((step c flt s (.line data host port default)).1 :: (run c flt (step c flt s (.line data host port default)).2 es).1) =
          receivedBytes (run c flt (step c flt s (.line data host port default)).2 es).1 := by
        rw [show (step c flt s (.line data host port default)).1 = (s.recorder.extractUrl data host port default).1.map (fun _ => .none) from rfl]
        cases (s.recorder.extractUrl data host port default).1 <;> rfl
      rw [this]
    | sent d =>
      have k : step c flt s (.sent d) = (.ok .none, { s with recorder := { s.recorder with requestOut := .opened (a ++ d) } }) := by
        rw [step]
        unfold Recorder.writeRequest
        rw [if_pos h1, show s.recorder.requestOut.write d = (.ok (), .opened (a ++ d)) by rw [h2]; rfl]
        rfl
      rw [k] at hf' ⊢
      obtain ⟨i1, i2, i3, i4⟩ := ih (s := { s with recorder := { s.recorder with requestOut := .opened (a ++ d) } }) (a := a ++ d) (b := b) h1 rfl h3 he' hf'
      exact ⟨i1, by rw [i2, sentBytes, List.append_assoc], by rw [i3]; rfl, i4⟩
    | response fp ip =>
      obtain ⟨hs, k⟩ := step_response (c := c) (flt := flt) (s := s) (fp := fp) (ip := ip)
      obtain ⟨i1, i2, i3, i4⟩ := ih (s := (step c flt s (.response fp ip)).2) (a := a) (b := b) (by rw [k]; exact h1) (by rw [k]; exact h2) (by rw [k]; exact h3) he' hf'
      exact ⟨i1, i2, by rw [i3]; rfl, i4⟩
    | read n =>
      rw [step] at hf' hx ⊢
      generalize PyStream.read s.fp n = y at hf' hx ⊢
      obtain ⟨y, fp⟩ := y
      cases y with
      | error e =>
        obtain ⟨i1, i2, i3, i4⟩ := ih (s := { s with fp := fp }) h1 h2 h3 he' hf'
        exact ⟨i1, i2, by rw [i3]; rfl, i4⟩
      | ok d =>
        dsimp only at hf' hx ⊢
        rw [hrec] at hf' hx ⊢
        obtain ⟨i1, i2, i3, i4⟩ := ih (s := { s with recorder := { s.recorder with responseOut := .opened (b ++ d) }, fp := fp }) (a := a) (b := b ++ d) h1 h2 rfl he' hf'
        exact ⟨i1, i2, by rw [i3, receivedBytes, List.append_assoc], i4⟩
    | readline n =>
      rw [step] at hf' hx ⊢
      generalize PyStream.readline s.fp n = y at hf' hx ⊢
      obtain ⟨y, fp⟩ := y
      cases y with
      | error e =>
        obtain ⟨i1, i2, i3, i4⟩ := ih (s := { s with fp := fp }) h1 h2 h3 he' hf'
        exact ⟨i1, i2, by rw [i3]; rfl, i4⟩
      | ok d =>
        dsimp only at hf' hx ⊢
        rw [hrec] at hf' hx ⊢
        obtain ⟨i1, i2, i3, i4⟩ := ih (s := { s with recorder := { s.recorder with responseOut := .opened (b ++ d) }, fp := fp }) (a := a) (b := b ++ d) h1 h2 rfl he' hf'
        exact ⟨i1, i2, by rw [i3, receivedBytes, List.append_assoc], i4⟩
    | readinto buff =>
      rw [step] at hf' hx ⊢
      generalize PyStream.read s.fp (some (len buff)) = y at hf' hx ⊢
      obtain ⟨y, fp⟩ := y
      cases y with
      | error e =>
        obtain ⟨i1, i2, i3, i4⟩ := ih (s := { s with fp := fp }) h1 h2 h3 he' hf'
        exact ⟨i1, i2, by rw [i3]; rfl, i4⟩
      | ok d =>
        dsimp only at hf' hx ⊢
        generalize d ++ buff.drop d.length = w at hf' hx ⊢
        rw [hrec] at hf' hx ⊢
        have hx : len d = len w := hx
        obtain ⟨i1, i2, i3, i4⟩ := ih (s := { s with recorder := { s.recorder with responseOut := .opened (b ++ w) }, fp := fp }) (a := a) (b := b ++ w) h1 h2 rfl he' hf'
        refine ⟨i1, i2, ?_, i4⟩
        rw [i3, receivedBytes, hx]
        have : w.take (len w).toNat = w := by simp [len]
        rw [this, List.append_assoc]

/-! ## Headers of the recorder -/

/-- The recorder only sets these headers. -/
def OwnHeaders (hs : List Header) : Prop := ∀ h ∈ hs, h.1 = lit "WARC-IP-Address" ∨ h.1 = lit "WARC-Proxy-Host"

theorem own_set {hs : List Header} (h : OwnHeaders hs) {k : Str} (hk : k = lit "WARC-IP-Address" ∨ k = lit "WARC-Proxy-Host") (v : Str) : OwnHeaders (Recorder.setItem hs k v) := by
  induction hs with
  | nil =>
    intro x hx
    rw [Recorder.setItem, List.mem_singleton] at hx
    subst hx
    exact hk
  | cons y ys ih =>
    obtain ⟨k', v'⟩ := y
    have hy := h (k', v') (by simp)
    have hys : OwnHeaders ys := fun x hx => h x (by simp [hx])
    rw [Recorder.setItem]
    split
    · intro x hx
      rcases List.mem_cons.1 hx with rfl | hx
      · exact hk
      · exact hys x hx
    · intro x hx
      rcases List.mem_cons.1 hx with rfl | hx
      · exact hy
      · exact ih hys x hx

theorem own_step (s : State τ) (e : Event τ) (hs : OwnHeaders s.recorder.headers) : OwnHeaders (step c flt s e).2.recorder.headers := by
  cases e with
  | tunnel => exact hs
  | start => exact hs
  | line data host port default =>
    rw [step_line]
    unfold Recorder.extractUrl
    split
    · exact hs
    · dsimp only
      split
      · exact hs
      · split
        · unfold Recorder.setConnect
          dsimp only
          split
          · exact hs
          · exact own_set hs (.inr rfl) _
        · unfold Recorder.setUrl
          dsimp only
          split
          · exact own_set hs (.inr rfl) _
          · exact hs
  | sent b => obtain ⟨o, h⟩ := step_sent (c := c) (flt := flt) (s := s) (b := b); rw [h]; exact hs
  | response fp ip =>
    show OwnHeaders (s.recorder.setRemoteIp ip).headers
    unfold Recorder.setRemoteIp
    split
    · exact own_set hs (.inl rfl) _
    · exact hs
  | read n => obtain ⟨o, h⟩ := step_read (c := c) (flt := flt) (s := s) (n := n); rw [h]; exact hs
  | readline n => obtain ⟨o, h⟩ := step_readline (c := c) (flt := flt) (s := s) (n := n); rw [h]; exact hs
  | readinto n => obtain ⟨o, h⟩ := step_readinto (c := c) (flt := flt) (s := s) (b := n); rw [h]; exact hs
  | close envs => obtain ⟨a, b, h⟩ := step_close (c := c) (flt := flt) (s := s) (envs := envs); rw [h]; exact hs

/-! ## The file -/

theorem flush_appends {s : Sink} (h : s.out.AtEnd) : ∃ b, s.flush.out = s.out.extended b := by
  unfold Sink.flush
  split
  · refine ⟨[], ?_⟩
    obtain ⟨⟨c, p⟩, g⟩ := s
    have h : p = c.length := h
    simp [OutFile.extended, h]
  · exact ⟨_, OutFile.write_end h _⟩

/-- Whatever happens, a writer at the end of its file only adds to it. -/
theorem write_appends {σ : Type} [PyFile σ] (c : BuilderCfg) (r : OutRecord σ) {o : OutFile} (ho : o.AtEnd) : ∃ b, (Writer.write c r o).2.2 = o.extended b := by
  obtain ⟨ws, x, r', h⟩ := writeTo_calls c r
  unfold Writer.write
  dsimp only
  rw [h]
  dsimp only
  have key : ∃ b, (ws.foldl Sink.write { out := o, gz := if c.gzip then some [] else none }).out = o.extended b := by
    cases c.gzip
    · exact ⟨_, by rw [if_neg (by simp), foldl_write_plain ws o ho]⟩
    · exact ⟨_, by rw [if_pos rfl, foldl_write_gz ws [] o ho]⟩
  split
  · obtain ⟨b, hb⟩ := key
    obtain ⟨b', hb'⟩ := flush_appends (s := ws.foldl Sink.write { out := o, gz := if c.gzip then some [] else none }) (by rw [hb]; rfl)
    refine ⟨b ++ b', ?_⟩
    rw [hb', hb]
    simp [OutFile.extended]
  · exact key

theorem writePair_appends (c : BuilderCfg) (req resp : OutRecord FileObj) {o : OutFile} (ho : o.AtEnd) : ∃ b, (Writer.writePair c req resp o).2.2.2 = o.extended b := by
  unfold Writer.writePair
  obtain ⟨b, hb⟩ := write_appends c resp ho
  generalize Writer.write c resp o = x at hb ⊢
  obtain ⟨x, resp', o'⟩ := x
  dsimp only at hb
  subst hb
  cases x with
  | error e => exact ⟨b, rfl⟩
  | ok u =>
    dsimp only
    split
    · exact ⟨b, rfl⟩
    · rename_i R _
      obtain ⟨b', hb'⟩ := write_appends c R (o := o.extended b) rfl
      refine ⟨b ++ b', ?_⟩
      show (Writer.write c R (o.extended b)).2.2 = _
      rw [hb']
      simp [OutFile.extended]

theorem step_appends (s : State τ) (e : Event τ) (hs : s.out.AtEnd) : ∃ b, (step c flt s e).2.out = s.out.extended b := by
  have nil : s.out = s.out.extended [] := by
    obtain ⟨r, f, ⟨c, p⟩⟩ := s
    have h : p = c.length := hs
    simp [OutFile.extended, h]
  cases e with
  | close envs =>
    rw [step]
    show ∃ b, (s.recorder.done c flt envs s.out).2.2 = _
    unfold Recorder.done
    split
    · show ∃ b, (s.recorder.store c flt envs s.out).2 = _
      unfold Recorder.store
      split
      · exact ⟨[], nil⟩
      · split
        · exact ⟨[], nil⟩
        · split
          · exact writePair_appends c _ _ hs
          · exact ⟨[], nil⟩
    · exact ⟨[], nil⟩
  | read n =>
    rw [step]
    generalize PyStream.read s.fp n = x
    obtain ⟨x, fp⟩ := x
    cases x <;> exact ⟨[], nil⟩
  | readline n =>
    rw [step]
    generalize PyStream.readline s.fp n = x
    obtain ⟨x, fp⟩ := x
    cases x <;> exact ⟨[], nil⟩
  | readinto n =>
    rw [step]
    generalize PyStream.read s.fp _ = x
    obtain ⟨x, fp⟩ := x
    cases x <;> exact ⟨[], nil⟩
  | _ => exact ⟨[], nil⟩

end
end Warcio.Capture
