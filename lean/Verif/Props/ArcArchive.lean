import Verif.Props.Index
import Verif.Props.Arc
import Verif.Proofs.ArcConvert
import Verif.Spec.ArcTools

/-!
# ARC files, as the tools open them
-/

set_option linter.unusedSectionVars false

namespace Warcio.Props

open Warcio ArchiveIter

section
variable [PyUni] [Hashlib] [Zlib] {IsMember : Bytes → Bytes → Prop} {IsCoded : DType → Bytes → Bytes → Prop}

/-- An ARC file with these records: one after the other, or each in a gzip member. -/
inductive ArcArchived (IsMember : Bytes → Bytes → Prop) (m : Nat) : FileObj → List ArcAt → Prop
  | plain (f : FileObj) (xs : List (ArcRecord × Option StatusAndHeaders)) : (∀ x ∈ xs, x.1.Good) → f.rest = xs.flatMap (·.1.bytes) → Reads f 16384 m →
      ArcArchived IsMember m f (arcPlacements f.origin xs)
  | gzip (f : FileObj) (xs : List (Bytes × ArcRecord × Option StatusAndHeaders)) : xs ≠ [] → (∀ x ∈ xs, x.2.1.Good ∧ IsMember x.1 x.2.1.bytes) → f.rest = xs.flatMap (·.1) →
      ReadsGz f 16384 m (xs.map (·.1)) → ArcArchived IsMember m f (arcPlacementsGz f.origin xs)

theorem arcPlaced_of (io : IterOpts) (m : Nat) : ∀ (xs : List (ArcRecord × Option StatusAndHeaders)) (off : Int),
    ArcRecord.placed io m off (xs.map (·.1)) = (arcPlacements off xs).map (fun x => x.record.expected io m x.offset x.size)
  | [], _ => rfl
  | (w, h) :: xs, off => by
    rw [List.map_cons, ArcRecord.placed, arcPlaced_of io m xs, arcPlacements, List.map_cons]

theorem arcPlacedGz_of (io : IterOpts) (m : Nat) : ∀ (xs : List (Bytes × ArcRecord × Option StatusAndHeaders)) (off : Int),
    ArcRecord.placedGz io m off (xs.map (fun x => (x.1, x.2.1))) = (arcPlacementsGz off xs).map (fun x => x.record.expected io m x.offset x.size)
  | [], _ => rfl
  | (z, w, h) :: xs, off => by
    rw [List.map_cons, ArcRecord.placedGz, arcPlacedGz_of io m xs, arcPlacementsGz, List.map_cons]

theorem arcPlacements_length : ∀ (xs : List (ArcRecord × Option StatusAndHeaders)) (off : Int), (arcPlacements off xs).length = xs.length
  | [], _ => rfl
  | (w, h) :: xs, off => by rw [arcPlacements, List.length_cons, arcPlacements_length xs, List.length_cons]

theorem arcPlacementsGz_length : ∀ (xs : List (Bytes × ArcRecord × Option StatusAndHeaders)) (off : Int), (arcPlacementsGz off xs).length = xs.length
  | [], _ => rfl
  | (z, w, h) :: xs, off => by rw [arcPlacementsGz, List.length_cons, arcPlacementsGz_length xs, List.length_cons]

/-- Opening it. -/
theorem arc_archived_ready (L : LawfulGzip IsMember) {m : Nat} {f : FileObj} {xs : List ArcAt} (h : ArcArchived IsMember m f xs) {io : IterOpts} (hv : io.verifyHttp = false) (hd : io.checkDigests ≠ some .raise) :
    ∃ it, openArchive f io = .ok it ∧ Ready false (some .stopIteration) it (xs.map (fun x => x.record.expected io m x.offset x.size)) ∧
      xs.length ≤ f.rest.length := by
  cases h with
  | plain xs h1 h2 h3 =>
    have hfit : ArcFit io (xs.map (·.1)) := ⟨fun w hw => by
      obtain ⟨x, hx, rfl⟩ := List.mem_map.1 hw
      exact h1 x hx, hv, hd⟩
    obtain ⟨it, k1, k2⟩ := arc_ready L hfit (by rw [h2, List.flatMap_map]) h3 (kf := none) (by simp)
    refine ⟨it, k1, by rw [← arcPlaced_of]; exact k2, ?_⟩
    rw [arcPlacements_length, h2]
    clear h2 k1 k2 hfit
    induction xs with
    | nil => simp
    | cons x xs ih =>
      have := ih (fun y hy => h1 y (by simp [hy]))
      have hx : 0 < x.1.bytes.length := by
        have := (h1 x (by simp)).sep.1
        have := List.length_pos_iff.2 this
        simp only [ArcRecord.bytes, List.length_append]; omega
      simp only [List.length_cons, List.flatMap_cons, List.length_append]; omega
  | gzip xs h0 h1 h2 h3 =>
    have hfit : ArcFit io ((xs.map (fun x => (x.1, x.2.1))).map (·.2)) := ⟨fun w hw => by
      rw [List.map_map] at hw
      obtain ⟨x, hx, rfl⟩ := List.mem_map.1 hw
      exact (h1 x hx).1, hv, hd⟩
    obtain ⟨it, k1, k2⟩ := arc_gz_ready L hfit (by
      intro y hy
      obtain ⟨x, hx, rfl⟩ := List.mem_map.1 hy
      exact (h1 x hx).2) (by rw [h2, List.flatMap_map]) (by simpa using h0) (by rw [List.map_map]; exact h3) (kf := none) (by simp)
    refine ⟨it, k1, by rw [← arcPlacedGz_of]; exact k2, ?_⟩
    rw [arcPlacementsGz_length, h2]
    clear h2 k1 k2 hfit h3 h0
    induction xs with
    | nil => simp
    | cons x xs ih =>
      have := ih (fun y hy => h1 y (by simp [hy]))
      have hx : 0 < x.1.length := by have := (L.magic (h1 x (by simp)).2).length_le; simp at this; omega
      simp only [List.length_cons, List.flatMap_cons, List.length_append]; omega

end
end Warcio.Props
