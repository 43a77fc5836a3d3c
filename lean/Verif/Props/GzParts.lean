import Verif.Proofs.GzParts
import Verif.Props.Parts

/-!
# Property C96: any file of gzip members

What iterating over a list of gzip members does, whatever they hold.  Specification: `GzParts` in
`Verif/Spec/GzParts.lean`.
-/

set_option linter.unusedSectionVars false

namespace Warcio.Props

open Warcio ArchiveIter BufReader Loader

section
variable [Zlib] [Hashlib] [PyUni] {IsMember : Bytes → Bytes → Prop}

/-- C96: iterating over any file of gzip members, with any options.  From each member there is one
record: a header block at its beginning, which is what the loader makes of the bytes there and of
nothing in other members, and as many bytes as it declares or as there are in the member.  Behind it one line and the blank
lines after it are skipped, with a warning if the line is not blank.  The offset and length
reported are those of the member.  The iteration ends behind the last member, with the exception of the
loader, or with a digest that fails; if there is more in the last member than that, with
`ArchiveLoadFailed` or the exception of the loader. -/
theorem C96_members (L : LawfulGzip IsMember) {f : FileObj} {bs m : Nat} {ms : List (Bytes × Bytes)} (hne : ms ≠ []) (hz : ∀ x ∈ ms, IsMember x.1 x.2) (hf : f.rest = ms.flatMap (·.1))
    (hr : ReadsGz f bs m (ms.map (·.1))) (io : IterOpts) (kf : Option Format) :
    ∃ it, openArchive f io bs kf = .ok it ∧ ∀ plan, PlanOk plan → GzParts io m 0 kf f.origin [] ms plan (iterate it plan) := by
  cases ms with
  | nil => exact absurd rfl hne
  | cons x ms =>
    obtain ⟨z, data⟩ := x
    obtain ⟨V, Q, it, hV, hX, k1, k2, k3⟩ := open_gz_any L hr.block (hr.lines.imp id (fun h => ⟨h.1, fun x hx => h.2 _ (List.mem_map.2 ⟨x, hx, rfl⟩)⟩)) hz hf io kf
    exact ⟨it, k1, fun plan hp => gz_parts hV hX plan (next_start k2) k3 hp⟩

/-- The members, each with its position and size. -/
def memberPlaces : Int → List Bytes → List (Int × Int)
  | _, [] => []
  | off, z :: zs => (off, len z) :: memberPlaces (off + len z) zs

/-- C96, positions: if in each member there is a record and nothing behind it but what is skipped, then offset and length
of the records, as many as are asked for, are those of the members.  `K` are the formats that may be taken for known. -/
theorem C96_places {io : IterOpts} (hc : io.checkDigests = none) {m : Nat} (K : Option Format → Prop) {n : Nat} {kf : Option Format} (hk : K kf) {off : Int} {ws : List Bytes} {ms : List (Bytes × Bytes)} {plan : List (List UserOp)} {steps : List Step}
    (h : GzParts io m n kf off ws ms plan steps) (hp : ∀ ops ∈ plan, ops = [.offset, .size])
    (hone : ∀ x ∈ ms, ∀ kf, K kf → ∀ n, (∀ e, ¬ Over (io.load kf (io.ids n)) m x.2 e) ∧
      ∀ (p : Portion) rec, x.2 = p.all → p.Shows (io.load kf (io.ids n)) rec → resumed p.tail = [] ∧ K (if io.arc2warc then kf else some rec.format)) :
    steps.filterMap Step.place = (memberPlaces off (ms.map (·.1))).take plan.length := by
  induction h with
  | enough => simp
  | nil n kf off ws ops plan => simp [memberPlaces, Step.place]
  | record n kf off ws z p ms ops plan rec left vs steps h1 h2 h3 h4 h5 h6 h7 ih =>
    have ho := hp ops (by simp)
    subst ho
    have key : vs = [.ok (.int off), .ok (.int (len z))] := by
      cases h5 with
      | cons _ _ v left' _ vs' a b =>
        cases b with
        | cons _ _ v' left'' _ vs'' a' b' =>
          cases b'
          rcases a with ⟨h0, -⟩ | ⟨rfl, -⟩
          · rw [hc] at h0; cases h0
          · rcases a' with ⟨h0, -⟩ | ⟨k, rfl, -, hk⟩
            · rw [hc] at h0; cases h0
            · rw [hk h6]
    subst key
    rw [List.filterMap_cons]
    simp only [Step.place, List.map_cons, memberPlaces, List.length_cons, List.take_succ_cons]
    rw [ih ((hone (z, p.all) (by simp) kf hk n).2 p rec rfl h1).2 (fun ops h => hp ops (by simp [h])) (fun x hx => hone x (by simp [hx]))]
  | several n kf off ws z p ms ops plan rec left vs steps h1 h2 h3 h4 h5 h6 h7 =>
    exact absurd ((hone (z, p.all) (by simp) kf hk n).2 p rec rfl h1).1 h6
  | broken n kf off ws ms ops plan e h0 h1 => rw [hc] at h1; cases h1
  | over n kf off ws z data ms ops plan e h1 => exact absurd h1 ((hone (z, data) (by simp) kf hk n).1 e)
  | hollow n kf off ws z data ms plan steps h1 h2 => exact absurd h2 ((hone (z, data) (by simp) kf hk n).1 _)

end

/-- Three gzip members: a record with a line behind it that is not blank, another one, and a member with two records. -/
def exMembers : List Bytes := [exLong.bytes, exInfo.head ++ exInfo.block ++ utf8Encode (lit "more\r\n\r\n"), exInfo.bytes ++ exLong.bytes]

/-- A number, or a number of warnings. -/
def _root_.Warcio.UserVal.num : UserVal → Int
  | .int k => k
  | .warned k _ => k
  | _ => -1

def exMany : FileObj := { content := exMembers.flatMap Toy.compress }

open Toy in
/-- The hypotheses of `C96_members`. -/
example : (∀ x ∈ exMembers.map (fun d => (compress d, d)), IsMember x.1 x.2) ∧ exMany.rest = (exMembers.map (fun d => (compress d, d))).flatMap (·.1) ∧
    ReadsGz exMany 16384 100 ((exMembers.map (fun d => (compress d, d))).map (·.1)) ∧ ReadsGz { exMany with caps := [1, 3, 1] } 5 0 ((exMembers.map (fun d => (compress d, d))).map (·.1)) ∧ PlanOk (List.replicate 5 [.offset, .size, .errors]) := by
  refine ⟨?_, rfl, .fit (by decide) rfl (by decide +kernel), ⟨by decide, .inl rfl⟩, by unfold PlanOk; decide⟩
  intro x hx
  obtain ⟨d, _, rfl⟩ := List.mem_map.1 hx
  rfl

open Toy in
/-- Offsets and lengths, and how many warnings there were. -/
example : (steps exMany {} 16384 (List.replicate 5 [.offset, .errors])).map (fun s => s.map (fun x => x.2.map (fun v => v.map UserVal.num))) =
    [.ok [.ok 0, .ok 1], .ok [.ok 235, .ok 2], .ok [.ok 396, .ok 2], .error .nonChunkedGzip, .error .stopIteration] ∧
    (steps exMany {} 16384 (List.replicate 2 [.offset, .size])).filterMap Step.place = memberPlaces 0 ((exMembers.take 2).map compress) := by decide +kernel

open Toy in
/-- Why nothing is said after a member with several records that is not the last one: the offset of the second record is in the middle of the first
member, that of the third one too; the error is raised behind the third record, of four. -/
theorem C96_several : (steps { content := exMembers.reverse.flatMap compress } {} 16384 (List.replicate 4 [.offset, .size])).map (fun s => s.map (fun x => x.2)) =
      [.ok [.ok (.int 0), .ok (.int 269)], .ok [.ok (.int 269), .ok (.int 198)], .ok [.ok (.int 467), .ok (.int 198)], .error .nonChunkedGzip] ∧
    memberPlaces 0 (exMembers.reverse.map compress) = [(0, 385), (385, 161), (546, 235)] := by decide +kernel

section
open Toy

/-- The options of the example. -/
def exIo : IterOpts := { noRecordParse := true, arc2warc := true }

theorem exInfo_detect : (detectType (exIo.load none []) exInfo.bytes none).2 = exInfo.block ++ exInfo.sep ∧
    (match (detectType (exIo.load none []) exInfo.bytes none).1 with | .ok (f, h) => blockLength (fields f h).length (fields f h).subLen | .error _ => none) = some 18 := by
  decide +kernel

/-- The hypotheses of `C96_places`. -/
theorem exInfo_one : exIo.checkDigests = none ∧ ∀ n, (∀ e, ¬ Over (exIo.load none (exIo.ids n)) 0 exInfo.bytes e) ∧
    ∀ (p : Portion) rec, exInfo.bytes = p.all → p.Shows (exIo.load none (exIo.ids n)) rec → resumed p.tail = [] ∧ (if exIo.arc2warc then none else some rec.format) = none := by
  obtain ⟨d1, d2⟩ := exInfo_detect
  refine ⟨rfl, fun n => ⟨?_, ?_⟩⟩
  · intro e h
    change Over (exIo.load none []) 0 exInfo.bytes e at h
    cases h with
    | empty h => revert h; decide +kernel
    | head e left _ h => rw [h] at d2; cases d2
    | bare f h _ h1 h2 => cases h2
    | digest e f h left _ _ _ _ h => cases h
    | status l f h left _ _ h2 => cases h2
    | uri f h left _ h1 h2 => cases h2
  · intro p rec hp h
    change p.Shows (exIo.load none []) rec at h
    obtain ⟨⟨f, hd, q1, -, -, -, -, q2⟩, -, -, -, q3⟩ := h
    rw [← hp] at q1
    rw [q1] at d1 d2
    dsimp only at d1 d2
    rw [d2] at q2
    refine ⟨?_, rfl⟩
    rw [d1, q2] at q3
    have q3 : p.block = exInfo.block := q3
    rw [q3] at d1
    rw [List.append_cancel_left d1]
    decide +kernel

end
end Warcio.Props
