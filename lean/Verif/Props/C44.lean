import Verif.Props.C43
import Mathlib.Tactic.Linarith
import Mathlib.Tactic.Ring
import Mathlib.Tactic.NormNum
import Mathlib.Algebra.Order.Ring.Rat

/-!
# C44: orientation of boundary faces

Full statement: `boundaryFacesWithOrientation` returns the boundary faces, each with a normal that points out of its cell, for every mesh of
tetrahedra and every position of the mesh in space.

The code compares the normal with the sum of the center of the face and the center of the cell, instead of their difference.  Proved: the faces are the
boundary faces, and which of them are outward, `orientation_partial`.  `outward_fails` has the reference tetrahedron.
-/

namespace PyNucleus.Props.C44

open PyNucleus.MeshBoundary PyNucleus.Refine PyNucleus.Props.C42 PyNucleus.Props.C43

variable {K : Type} [Field K] [LinearOrder K] [IsStrictOrderedRing K]

/-- Six times the signed volume of the tetrahedron with base `f` and apex `p`: positive on the side the normal of `f` points to. -/
def side (X : Nat → Nat → K) (f : List Nat) (p : Nat → K) : K :=
  let a := X (f.getD 0 0)
  let b := X (f.getD 1 0)
  let c := X (f.getD 2 0)
  (b 0 - a 0) * ((c 1 - a 1) * (p 2 - a 2) - (c 2 - a 2) * (p 1 - a 1)) - (b 1 - a 1) * ((c 0 - a 0) * (p 2 - a 2) - (c 2 - a 2) * (p 0 - a 0))
    + (b 2 - a 2) * ((c 0 - a 0) * (p 1 - a 1) - (c 1 - a 1) * (p 0 - a 0))

/-- The normal of `f` points out of the tetrahedron with the vertices of `f` and `w`. -/
def Outward (X : Nat → Nat → K) (f : List Nat) (w : Nat) : Prop := side X f (X w) < 0

/-- The full statement for one mesh. -/
def AllOutward (X : Nat → Nat → K) (cells : List (List Nat)) : Prop :=
  ∀ g ∈ boundaryFacesOriented X cells, ∃ c ∈ cells, ∃ w ∈ c, w ∉ g ∧ g ⊆ c ∧ Outward X g w

private theorem side_swap (X : Nat → Nat → K) (a b c : Nat) (p : Nat → K) : side X [a, c, b] p = -side X [a, b, c] p := by
  unfold side
  simp only [List.getD_cons_zero, List.getD_cons_succ]
  ring

/-- The quantity the code looks at. -/
private theorem test_eq (X : Nat → Nat → K) (a b c w : Nat) (cell : List Nat) (hp : cell.Perm [a, b, c, w]) :
    faceNormal X [a, b, c] 0 * direction X [a, b, c] cell 0 + faceNormal X [a, b, c] 1 * direction X [a, b, c] cell 1 + faceNormal X [a, b, c] 2 * direction X [a, b, c] cell 2 =
      side X [a, b, c] (X w) / 4 - 2 * side X [a, b, c] (fun _ => 0) := by
  have h4 : cell.length = 4 := hp.length_eq
  have hs : ∀ j, X (cell.getD 0 0) j + X (cell.getD 1 0) j + X (cell.getD 2 0) j + X (cell.getD 3 0) j = X a j + X b j + X c j + X w j := by
    intro j
    have := (hp.map fun v => X v j).sum_eq
    match cell, h4 with
    | [u0, u1, u2, u3], _ =>
      simp only [List.map_cons, List.map_nil, List.sum_cons, List.sum_nil, add_zero, List.getD_cons_zero, List.getD_cons_succ] at this ⊢
      rw [← add_assoc, ← add_assoc] at this
      rw [this]; ring
  have hd : ∀ j, direction X [a, b, c] cell j = (X a j + X b j + X c j) / 3 + (X a j + X b j + X c j + X w j) / 4 := by
    intro j
    unfold direction
    rw [← hs j]
    simp only [List.getD_cons_zero, List.getD_cons_succ]
    ring
  simp only [hd]
  unfold faceNormal side
  simp only [List.getD_cons_zero, List.getD_cons_succ]
  norm_num
  ring

private theorem orient_list (X : Nat → Nat → K) (a b c w : Nat) (cell : List Nat) (hp : cell.Perm [a, b, c, w]) (g : List Nat) (hg : g = orientFace X [a, b, c] cell) :
    g.Perm [a, b, c] ∧ (side X g (fun _ => 0) * side X g (X w) > side X g (X w) ^ 2 / 8 → Outward X g w) ∧
      (side X g (fun _ => 0) * side X g (X w) < side X g (X w) ^ 2 / 8 → ¬ Outward X g w) := by
  have e := test_eq X a b c w cell hp
  unfold orientFace at hg
  rw [e] at hg
  generalize hS : side X [a, b, c] (X w) = S at *
  generalize hO : side X [a, b, c] (fun _ => 0) = O at *
  by_cases ht : S / 4 - 2 * O < 0
  · rw [if_pos ht] at hg
    subst hg
    simp only [List.getD_cons_zero, List.getD_cons_succ]
    refine ⟨List.Perm.cons _ (List.Perm.swap _ _ _), ?_, ?_⟩
    · rw [side_swap X a b c (X w), side_swap X a b c (fun _ => 0), hS, hO]
      intro h
      unfold Outward
      rw [side_swap, hS]
      by_contra hn
      have h1 : 0 ≤ -S := not_lt.1 hn
      nlinarith
    · rw [side_swap X a b c (X w), side_swap X a b c (fun _ => 0), hS, hO]
      intro h
      unfold Outward
      rw [side_swap, hS]
      intro hn
      nlinarith
  · rw [if_neg ht] at hg
    subst hg
    refine ⟨List.Perm.refl _, ?_, ?_⟩
    · rw [hS, hO]
      intro h
      unfold Outward
      rw [hS]
      by_contra hn
      have h1 : 0 ≤ S := not_lt.1 hn
      nlinarith
    · rw [hS, hO]
      intro h
      unfold Outward
      rw [hS]
      intro hn
      nlinarith

private theorem perm_of_face {f c : List Nat} (hf : f.length = 3) (hfn : f.Nodup) (hc : c.length = 4) (hcn : c.Nodup) (hs : f ⊆ c) (w : Nat) (hw : w ∈ c) (hwf : w ∉ f) :
    ∃ a b e, f = [a, b, e] ∧ c.Perm [a, b, e, w] := by
  match f, hf with
  | [a, b, e], _ =>
    refine ⟨a, b, e, rfl, ?_⟩
    have hn : [a, b, e, w].Nodup := by
      simp only [List.nodup_cons, List.mem_cons, List.not_mem_nil, or_false, not_or, List.nodup_nil, and_true, not_false_eq_true] at hfn hwf ⊢
      exact ⟨⟨hfn.1.1, hfn.1.2, fun h => hwf.1 h.symm⟩, ⟨hfn.2, fun h => hwf.2.1 h.symm⟩, fun h => hwf.2.2 h.symm⟩
    have hsub : [a, b, e, w] ⊆ c := by
      intro x hx
      simp only [List.mem_cons, List.not_mem_nil, or_false] at hx
      rcases hx with rfl | rfl | rfl | rfl
      · exact hs (by simp)
      · exact hs (by simp)
      · exact hs (by simp)
      · exact hw
    exact ((List.subperm_of_subset hn hsub).perm_of_length_le (by rw [hc]; rfl)).symm

/-- The faces are the faces in an odd number of cells, no two of them with the same vertices.  Each is a face of a cell; if `w` is the other vertex of this cell then the
face is outward if the origin is on the side of `w` and further than an eighth of the distance of `w` from the face, and not outward if it is less. -/
theorem orientation_partial (X : Nat → Nat → K) (n : Nat) (cells : List (List Nat)) (hc : IsMesh 3 n cells) :
    (boundaryFacesOriented X cells).Pairwise (fun g g' => ¬ g.Perm g') ∧
    (∀ f, f.length = 3 → f.Nodup → ((∃ g ∈ boundaryFacesOriented X cells, g.Perm f) ↔ Odd (cells.countP (f ⊆ ·)))) ∧
    ∀ g ∈ boundaryFacesOriented X cells, g.length = 3 ∧ g.Nodup ∧ ∃ c ∈ cells, g ⊆ c ∧ ∀ w ∈ c, w ∉ g →
      (side X g (fun _ => 0) * side X g (X w) > side X g (X w) ^ 2 / 8 → Outward X g w) ∧
      (side X g (fun _ => 0) * side X g (X w) < side X g (X w) ^ 2 / 8 → ¬ Outward X g w) := by
  obtain ⟨h1, h2, h3⟩ := toggleD_spec (cells.zipIdx.flatMap fun p => (cellFaces p.1).map fun f => (f, p.2)) [] List.nodup_nil
  unfold boundaryFacesOriented
  generalize hd : (cells.zipIdx.flatMap fun p => (cellFaces p.1).map fun f => (f, p.2)).foldl toggleD [] = d at *
  have hcell : ∀ q ∈ d, cells.getD q.2 [] ∈ cells ∧ (q.1.length = 3 ∧ q.1.Pairwise (· < ·)) ∧ q.1 ⊆ cells.getD q.2 [] := by
    intro q hq
    rcases h3 q hq with ⟨h, -⟩ | ⟨l1, l2, h, -⟩
    · exact absurd h List.not_mem_nil
    · have hm : q ∈ cells.zipIdx.flatMap fun p => (cellFaces p.1).map fun f => (f, p.2) := by rw [h]; simp
      obtain ⟨p, hp, hq'⟩ := List.mem_flatMap.1 hm
      have hp' := List.mk_mem_zipIdx_iff_getElem?.1 (show (p.1, p.2) ∈ cells.zipIdx from hp)
      have hpc : p.1 ∈ cells := List.mem_of_getElem? hp'
      obtain ⟨f, hf, rfl⟩ := List.mem_map.1 hq'
      have e : cells.getD p.2 [] = p.1 := by rw [List.getD_eq_getElem?_getD, hp']; rfl
      simp only [e]
      exact ⟨hpc, ((cellFaces_spec p.1 (hc _ hpc).1 (hc _ hpc).2.1).2 f).1 hf⟩
  have hmain : ∀ q ∈ d, (orientFace X q.1 (cells.getD q.2 [])).Perm q.1 ∧ ∀ w ∈ cells.getD q.2 [], w ∉ q.1 →
      (side X (orientFace X q.1 (cells.getD q.2 [])) (fun _ => 0) * side X (orientFace X q.1 (cells.getD q.2 [])) (X w) > side X (orientFace X q.1 (cells.getD q.2 [])) (X w) ^ 2 / 8 →
        Outward X (orientFace X q.1 (cells.getD q.2 [])) w) ∧
      (side X (orientFace X q.1 (cells.getD q.2 [])) (fun _ => 0) * side X (orientFace X q.1 (cells.getD q.2 [])) (X w) < side X (orientFace X q.1 (cells.getD q.2 [])) (X w) ^ 2 / 8 →
        ¬ Outward X (orientFace X q.1 (cells.getD q.2 [])) w) := by
    intro q hq
    obtain ⟨g1, ⟨g2, g3⟩, g4⟩ := hcell q hq
    obtain ⟨c1, c2, -⟩ := hc _ g1
    have hqn : q.1.Nodup := g3.imp (fun h => Nat.ne_of_lt h)
    constructor
    · match hq1 : q.1, g2 with
      | [a, b, e], _ =>
        unfold orientFace
        split
        · exact List.Perm.cons _ (List.Perm.swap _ _ _)
        · exact List.Perm.refl _
    · intro w hw hwf
      obtain ⟨a, b, e, hf, hp⟩ := perm_of_face g2 hqn c1 c2 g4 w hw hwf
      rw [hf]
      exact (orient_list X a b e w _ hp _ rfl).2
  refine ⟨?_, fun f hf hfn => ?_, fun g hg => ?_⟩
  · rw [List.pairwise_map]
    have hp : d.Pairwise fun q q' => q.1 ≠ q'.1 := by
      rw [← List.pairwise_map (f := Prod.fst) (R := (· ≠ ·))]
      exact h1
    refine hp.imp_of_mem ?_
    intro q q' hq hq' hqq hs
    have hperm := (hmain q hq).1.symm.trans (hs.trans (hmain q' hq').1)
    exact hqq (hperm.eq_of_pairwise (le := (· < ·)) (fun a b _ _ h h' => by omega) (hcell q hq).2.1.2 (hcell q' hq').2.1.2)
  · have hmap : (cells.zipIdx.flatMap fun p => (cellFaces p.1).map fun f => (f, p.2)).map Prod.fst = cells.flatMap cellFaces := by
      rw [List.map_flatMap]
      simp only [List.map_map]
      conv => rhs; rw [← List.zipIdx_map_fst 0 cells]
      rw [List.flatMap_map]
      congr 1
    match f, hf with
    | [a, b, e], _ =>
      have hsp := sortFace_perm a b e
      have hE : (∃ g ∈ d.map (fun q => orientFace X q.1 (cells.getD q.2 [])), g.Perm [a, b, e]) ↔ sortFace a b e ∈ d.map Prod.fst := by
        constructor
        · rintro ⟨g, hg, hs⟩
          obtain ⟨q, hq, rfl⟩ := List.mem_map.1 hg
          refine List.mem_map.2 ⟨q, hq, ?_⟩
          have hperm : q.1.Perm (sortFace a b e) := (hmain q hq).1.symm.trans (hs.trans hsp.symm)
          exact hperm.eq_of_pairwise (le := (· < ·)) (fun a b _ _ h h' => by omega) (hcell q hq).2.1.2 (sortFace_sorted a b e hfn)
        · intro h
          obtain ⟨q, hq, e'⟩ := List.mem_map.1 h
          exact ⟨_, List.mem_map_of_mem hq, (hmain q hq).1.trans (e' ▸ hsp)⟩
      rw [hE, h2, hmap, count_flatMap cellFaces (fun c => [a, b, e] ⊆ c)]
      · simp
      · intro c hm
        obtain ⟨g1, g2⟩ := cellFaces_spec c (hc c hm).1 (hc c hm).2.1
        refine ⟨g1, (g2 _).trans ⟨fun h => ?_, fun h => ⟨⟨hsp.length_eq, sortFace_sorted a b e hfn⟩, fun x hx => h (hsp.mem_iff.1 hx)⟩⟩⟩
        exact fun x hx => h.2 (hsp.mem_iff.2 hx)
  · obtain ⟨q, hq, rfl⟩ := List.mem_map.1 hg
    obtain ⟨g1, ⟨g2, g3⟩, g4⟩ := hcell q hq
    obtain ⟨m1, m2⟩ := hmain q hq
    exact ⟨m1.length_eq.trans g2, m1.nodup_iff.2 (g3.imp (fun h => Nat.ne_of_lt h)), _, g1, fun x hx => g4 (m1.mem_iff.1 hx), fun w hw hwg => m2 w hw (fun h => hwg (m1.mem_iff.2 h))⟩

/-! ### concrete cases -/

/-- The reference tetrahedron. -/
def unitTet (v j : Nat) : ℚ := if v = j + 1 then 1 else 0

/-- The faces of the reference tetrahedron that contain the origin are not outward. -/
theorem outward_fails : ∃ (X : Nat → Nat → ℚ) (n : Nat) (cells : List (List Nat)), IsMesh 3 n cells ∧ (∀ c ∈ cells, ∀ f ∈ cellFaces c, ∀ w ∈ c, w ∉ f → side X f (X w) ≠ 0) ∧ ¬ AllOutward X cells := by
  refine ⟨unitTet, 4, [[0, 1, 2, 3]], by unfold IsMesh; decide, by decide +kernel, ?_⟩
  unfold AllOutward Outward
  decide +kernel

/-- The same tetrahedron around the origin. -/
def centered (v j : Nat) : ℚ := unitTet v j - 1 / 4

example : AllOutward centered [[0, 1, 2, 3]] := by
  unfold AllOutward Outward
  decide +kernel

end PyNucleus.Props.C44
