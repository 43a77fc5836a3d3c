import Verif.Proofs.Ready
import Verif.Proofs.WriteCalls

/-!
# Writing records that are read from an archive
-/

set_option linter.unusedSectionVars false

namespace Warcio

open Writer Builder ArchiveIter Recompressor

section
variable {σ : Type} [Zlib] [PyStream σ] [Hashlib] [PyUni]

/-- The stream of the current record, as a payload stream. -/
def nowHolding (multi : Bool) (last : Option PyErr) (it : ArchiveIter σ) (e : Expected) (es : List Expected) : Holding (RawStream (BufReader σ)) where
  holds raw d := Now multi last { it with raw := raw } e d es
  sends := by
    intro raw d h
    obtain ⟨bufs, raw', k1, k2, -⟩ := h.iterAll
    exact ⟨bufs, raw', k1, k2⟩
  rewind := by
    intro raw d p s1 h ht hs
    cases hs

variable [Deflater]

/-- Writing the current record: the bytes, and the iterator goes on. -/
theorem copy_step {f : Bytes → Bytes} (H : Hashlib.hash (lit "sha1") = some f) (c : BuilderCfg) {multi : Bool} {last : Option PyErr} {it : ArchiveIter σ} {e : Expected} {left : Bytes}
    {es : List Expected} (h : Now multi last it e left es) {rec : Record (RawStream (BufReader σ))} (hr : rec.rawStream = it.raw) {hb : Bytes}
    (hh : HttpPart c.filter (OutRecord.ofRead rec) hb) (hl : LengthsFit (OutRecord.ofRead rec) hb left) (hv : rec.recHeaders.protocol ≠ []) {o : OutFile} (ho : o.AtEnd) :
    ∃ (ws : List Bytes) (r' : OutRecord (RawStream (BufReader σ))), write c (OutRecord.ofRead rec) o = (.ok (), r', o.extended (if c.gzip then Deflater.outFrom [] ws ++ Deflater.flush ws else ws.flatten)) ∧
      ws.flatten = recordBytes rec.recHeaders.protocol rec.recHeaders.statusline (writtenHeaders f (OutRecord.ofRead rec) hb left) (blockOf (OutRecord.ofRead rec) hb left) ∧
      ∃ left', Now multi last { it with raw := putBack it.raw r' } e left' es := by
  letI := nowHolding multi last it e es
  have hraw : (OutRecord.ofRead rec).raw = .own it.raw := by rw [← hr]; rfl
  have hd : holds (OutRecord.ofRead rec).raw left := by rw [hraw]; exact h
  obtain ⟨ws, r', h1, h2, h3, h4⟩ := write_eq H c (OutRecord.ofRead rec) hd hh hl ho
  refine ⟨ws, r', h1, ?_, ?_⟩
  · have p1 : r'.recHeaders.protocol = rec.recHeaders.protocol := by rw [h2]; rfl
    have p2 : r'.recHeaders.statusline = rec.recHeaders.statusline := by rw [h2]; rfl
    have p3 : r'.recHeaders.headers = writtenHeaders f (OutRecord.ofRead rec) hb left := by rw [h2]
    rw [h3, toBytes_headText (by rw [p1]; exact hv), p1, p2, p3]
    rfl
  · obtain ⟨raw, orig, bufs, s, m1, m2, m3, m4⟩ := h4.streams
    obtain ⟨bufs0, s0, i1, -, i3⟩ := h.iterAll
    have i4 : iterAll (RecStream.own it.raw) = (bufs0, .ok (), .own s0) := by rw [iterAll_own, i1]
    rw [hraw] at m2
    have e1 : r'.raw = (r'.raw, r'.orig).1 := rfl
    have e2 : r'.orig = (r'.raw, r'.orig).2 := rfl
    rcases m2 with ⟨q1, q2⟩ | ⟨bufs', s', q1, q2⟩
    · have q2 : raw = .own it.raw := by
        rcases q2 with q2 | ⟨p, s, -, q2⟩
        · exact q2
        · cases q2
      have q1 : orig = none := q1
      subst q1 q2
      rw [i4] at m3
      cases m3
      split at m4
      · rw [m4] at e1
        exact ⟨left, by unfold putBack; rw [e1]; exact h⟩
      · rw [m4] at e1
        exact ⟨[], by unfold putBack; rw [e1]; exact i3⟩
    · rw [i4] at q2
      cases q2
      subst q1
      split at m4
      · rw [m4] at e1 e2
        cases raw with
        | own x => exact ⟨left, by unfold putBack; rw [e1]; exact m1⟩
        | mem x => exact ⟨[], by unfold putBack; rw [e1, e2]; exact i3⟩
        | closed => exact absurd m1 (fun h => h)
      · rw [m4] at e1
        exact ⟨[], by unfold putBack; rw [e1]; exact i3⟩

end
end Warcio
