import Verif.Proof.TreeSearch
import Mathlib.Tactic.NormNum

/-!
# C98: searching cells with a cluster tree
-/

namespace PyNucleus.Props.C98

open PyNucleus.TreeSearch

/-- `minDist2FromBox` is the smallest squared distance from the points of the box, and
`distsFromBox` are the smallest and the largest distance. -/
theorem box_distances (n : Nat) (box : Box) (v : Vec) (hb : ∀ i < n, (box i).1 ≤ (box i).2) :
    (∀ p, InBox n box p → minDist2 n box v ≤ sqDist n p v) ∧
    (∃ p, InBox n box p ∧ sqDist n p v = minDist2 n box v) ∧
    (∀ p, InBox n box p → (dists n box v).1 ≤ Real.sqrt (sqDist n p v) ∧
      Real.sqrt (sqDist n p v) ≤ (dists n box v).2) ∧
    (∃ p, InBox n box p ∧ Real.sqrt (sqDist n p v) = (dists n box v).1) ∧
    (∃ p, InBox n box p ∧ Real.sqrt (sqDist n p v) = (dists n box v).2) := by
  have hlo : ∀ p, InBox n box p → minDist2 n box v ≤ sqDist n p v := fun p hp => by
    rw [minDist2_eq]
    exact Finset.sum_le_sum fun i hi => lo_le box v p i (hp i (Finset.mem_range.mp hi))
  have hhi : ∀ p, InBox n box p → sqDist n p v ≤ (dists2 n box v).2 := fun p hp => by
    rw [dists2_eq]
    exact Finset.sum_le_sum fun i hi => le_hi box v p i (hp i (Finset.mem_range.mp hi))
  have hnear : InBox n box (nearest box v) ∧ sqDist n (nearest box v) v = minDist2 n box v := by
    refine ⟨fun i hi => (nearest_spec box v i (hb i hi)).1, ?_⟩
    rw [minDist2_eq]
    exact Finset.sum_congr rfl fun i hi => (nearest_spec box v i (hb i (Finset.mem_range.mp hi))).2
  have hfar : InBox n box (farthest box v) ∧ sqDist n (farthest box v) v = (dists2 n box v).2 := by
    refine ⟨fun i hi => (farthest_spec box v i (hb i hi)).1, ?_⟩
    rw [dists2_eq]
    exact Finset.sum_congr rfl fun i hi => (farthest_spec box v i (hb i (Finset.mem_range.mp hi))).2
  have h1 : (dists2 n box v).1 = minDist2 n box v := by rw [dists2_eq, minDist2_eq]
  refine ⟨hlo, ⟨_, hnear⟩, fun p hp => ⟨?_, Real.sqrt_le_sqrt (hhi p hp)⟩, ⟨_, hnear.1, ?_⟩,
    ⟨_, hfar.1, by rw [hfar.2]; rfl⟩⟩
  · show Real.sqrt _ ≤ _
    rw [h1]; exact Real.sqrt_le_sqrt (hlo p hp)
  · rw [hnear.2, ← h1]; rfl

/-- If a box is divided in two along a direction, each point of the box is in exactly one of the two halves, and no other point is. -/
theorem halves (n : Nat) (box : Box) (v : Vec) (k : Nat) (hk : k < n) (m : ℝ) (h1 : (box k).1 ≤ m) (h2 : m ≤ (box k).2) :
    inBox n box v = (inBox n (Function.update box k ((box k).1, m)) v ^^ inBox n (Function.update box k (m, (box k).2)) v) := by
  have hiff : ∀ b : Box, inBox n b v = true ↔ ∀ i < n, (b i).1 ≤ v i ∧ v i < (b i).2 := by
    intro b
    unfold inBox
    have : ∀ (l : List Nat) (t : Bool), l.foldl (fun t i => t && decide ((b i).1 ≤ v i) && decide (v i < (b i).2)) t = true ↔
        t = true ∧ ∀ i ∈ l, (b i).1 ≤ v i ∧ v i < (b i).2 := by
      intro l
      induction l with
      | nil => simp
      | cons a l ih => intro t; rw [List.foldl_cons, ih]; simp [and_assoc]
    rw [this]; simp
  have hup : ∀ p : ℝ × ℝ, inBox n (Function.update box k p) v = true ↔
      (p.1 ≤ v k ∧ v k < p.2) ∧ ∀ i < n, i ≠ k → (box i).1 ≤ v i ∧ v i < (box i).2 := by
    intro p
    rw [hiff]
    constructor
    · intro h
      refine ⟨by simpa using h k hk, fun i hi hne => by simpa [Function.update_of_ne hne] using h i hi⟩
    · rintro ⟨h, h'⟩ i hi
      by_cases hne : i = k
      · subst hne; simpa using h
      · simpa [Function.update_of_ne hne] using h' i hi hne
  have hall : inBox n box v = true ↔ ((box k).1 ≤ v k ∧ v k < (box k).2) ∧ ∀ i < n, i ≠ k → (box i).1 ≤ v i ∧ v i < (box i).2 := by
    have := hup (box k); rwa [Function.update_eq_self] at this
  rw [Bool.eq_iff_iff, Bool.xor_iff_ne, hall, ne_eq, Bool.eq_iff_iff, hup, hup]
  dsimp only
  by_cases ho : ∀ i < n, i ≠ k → (box i).1 ≤ v i ∧ v i < (box i).2
  · rw [and_iff_left ho, and_iff_left ho, and_iff_left ho]
    constructor
    · rintro ⟨a, b⟩ h
      rcases lt_or_ge (v k) m with hm | hm
      · exact absurd (h.1 ⟨a, hm⟩).1 (not_le.2 hm)
      · exact absurd (h.2 ⟨hm, b⟩).2 (not_lt.2 hm)
    · intro h
      by_contra hc
      apply h
      constructor
      · rintro ⟨a, b⟩; exact absurd ⟨a, lt_of_lt_of_le b h2⟩ hc
      · rintro ⟨a, b⟩; exact absurd ⟨le_trans h1 a, b⟩ hc
  · simp only [ho, and_false, not_true_eq_false]

/-- The midpoint of the unit interval is in the upper half only. -/
theorem halves_case : inBox 1 (fun _ => (0, 1)) (fun _ => 1 / 2) = true ∧ inBox 1 (fun _ => (0, 1 / 2)) (fun _ => 1 / 2) = false ∧
    inBox 1 (fun _ => (1 / 2, 1)) (fun _ => 1 / 2) = true := by
  refine ⟨?_, ?_, ?_⟩ <;> norm_num [inBox]

/-- A point has distance 0 from a closed box exactly if it lies in it. -/
theorem in_box (n : Nat) (box : Box) (v : Vec) (hb : ∀ i < n, (box i).1 ≤ (box i).2) :
    minDist2 n box v = 0 ↔ InBox n box v := by
  constructor
  · intro h i hi
    obtain ⟨p, hp, he⟩ := (box_distances n box v hb).2.1
    rw [h] at he
    have h0 := (Finset.sum_eq_zero_iff_of_nonneg (fun i _ => sq_nonneg (p i - v i))).mp he i
      (Finset.mem_range.mpr hi)
    have : p i = v i := by
      have := pow_eq_zero_iff (two_ne_zero) |>.mp h0
      linarith
    rw [← this]
    exact hp i hi
  · intro h
    refine le_antisymm ?_ (minDist2_nonneg n box v)
    have := (box_distances n box v hb).1 v h
    simpa [sqDist] using this

/-- `distFromSimplex` tells whether the circle meets the boundary of the triangle in a point of an
edge whose line it does not only touch. -/
theorem circle (s : Triangle) (v : Vec) (r : ℝ)
    (hs : ∀ i < 3, ∃ j < 2, s ((i + 1) % 3) j ≠ s i j) :
    distFromSimplex s v r = true ↔ ∃ i < 3,
      (∃ t, 0 ≤ t ∧ t ≤ 1 ∧ sqDist 2 (edgePoint s i t) v = r ^ 2) ∧
      ∃ t, sqDist 2 (edgePoint s i t) v < r ^ 2 := by
  unfold distFromSimplex
  rw [List.any_eq_true]
  constructor
  · rintro ⟨i, hi, h⟩
    have hi' := List.mem_range.mp hi
    exact ⟨i, hi', (cutsEdge_iff s v r i (hs i hi')).mp h⟩
  · rintro ⟨i, hi, h⟩
    exact ⟨i, List.mem_range.mpr hi, (cutsEdge_iff s v r i (hs i hi)).mpr h⟩

/-- If the boxes of all nodes contain the cells in their leaves, `findCells` finds exactly the cells
of the tree whose edges the circle cuts; no cell is lost by skipping nodes. -/
theorem cells_on_circle (simplex : Nat → Triangle) (h : ℝ) (hh : 0 < h) (v : Vec) (r : ℝ) (hr : 0 ≤ r)
    (t : Node) (hbox : ∀ w ∈ t.ways, ∀ c ∈ w.2, ∀ b ∈ w.1, ∀ k < 3, InBox 2 b (simplex c k))
    (hs : ∀ w ∈ t.ways, ∀ c ∈ w.2, ∀ i < 3, ∃ j < 2, simplex c ((i + 1) % 3) j ≠ simplex c i j)
    (c : Nat) :
    c ∈ findCells 2 simplex h v r t ↔ (∃ w ∈ t.ways, c ∈ w.2) ∧ ∃ i < 3,
      (∃ u, 0 ≤ u ∧ u ≤ 1 ∧ sqDist 2 (edgePoint (simplex c) i u) v = r ^ 2) ∧
      ∃ u, sqDist 2 (edgePoint (simplex c) i u) v < r ^ 2 := by
  rw [mem_findCells]
  constructor
  · rintro ⟨w, hw, hc, hd, -⟩
    exact ⟨⟨w, hw, hc⟩, (circle _ v r (hs w hw c hc)).mp hd⟩
  · rintro ⟨⟨w, hw, hc⟩, hcut⟩
    refine ⟨w, hw, hc, (circle _ v r (hs w hw c hc)).mpr hcut, fun b hb => ?_⟩
    obtain ⟨i, hi, ⟨u, h0, h1, hu⟩, -⟩ := hcut
    have hin := edgePoint_inBox (simplex c) b i hi (hbox w hw c hc b hb) u h0 h1
    have hb' : ∀ i < 2, (b i).1 ≤ (b i).2 := fun j hj => le_trans (hin j hj).1 (hin j hj).2
    have hd := (box_distances 2 b v hb').2.2.1 _ hin
    rw [hu, Real.sqrt_sq hr] at hd
    rintro (h2 | h2) <;> linarith [hd.1, hd.2]

/-- A triangle with all vertices far away and a circle of radius 1 in its interior. -/
def sampleTriangle : Triangle := fun i j =>
  if i = 0 then -10 else if i = 1 then (if j = 0 then 30 else -10) else (if j = 0 then -10 else 30)

/-- A circle in the interior of a triangle: the triangle is not found, although it contains the
circle. -/
theorem inside_fails :
    findCells 2 (fun _ => sampleTriangle) 100 (fun _ => 0) 1
      (.leaf (fun _ => (-10, 30)) [7]) = [] := by
  unfold findCells
  split
  · rfl
  · rw [List.filter_eq_nil_iff]
    intro c _
    rw [Bool.not_eq_true]
    unfold distFromSimplex
    rw [List.any_eq_false]
    intro i hi
    have hi' := List.mem_range.mp hi
    have : i = 0 ∨ i = 1 ∨ i = 2 := by omega
    rcases this with rfl | rfl | rfl <;>
      norm_num [cutsEdge, dot2, sampleTriangle]

/-- `findCell`, if no leaf is empty and the first cell of each leaf is the only one that counts: what
is found contains the point, and a point in the first cell of a leaf with boxes around it is found. -/
theorem cell_partial (n : Nat) (v : Vec) (inCell : Nat → Bool) (t : Node)
    (hne : ∀ w ∈ t.ways, w.2 ≠ []) :
    (∀ c : Nat, findCell n v inCell t = c → inCell c = true ∧ ∃ w ∈ t.ways, c ∈ w.2) ∧
    (-1 ≤ findCell n v inCell t) ∧
    ((∃ w ∈ t.ways, (∃ c, w.2.head? = some c ∧ inCell c = true) ∧
      ∀ b ∈ w.1, (∀ i < n, (b i).1 ≤ (b i).2) ∧ InBox n b v) →
      ∃ c : Nat, findCell n v inCell t = c ∧ inCell c = true) := by
  have hsound := findCell_sound n v inCell t hne
  refine ⟨?_, ?_, ?_⟩
  · intro c hc
    rcases hsound with h | ⟨w, hw, d, hd, h1, h2⟩
    · rw [hc] at h; omega
    · rw [hc] at h1
      have : c = d := by exact_mod_cast h1
      subst this
      exact ⟨h2, w, hw, hd⟩
  · rcases hsound with h | ⟨w, hw, d, hd, h1, h2⟩
    · omega
    · omega
  · rintro ⟨w, hw, hc, hb⟩
    have h0 := findCell_complete n v inCell t ⟨w, hw, hc, fun b hb' =>
      (in_box n b v (hb b hb').1).mpr (hb b hb').2⟩
    rcases hsound with h | ⟨w, hw, d, hd, h1, h2⟩
    · omega
    · exact ⟨d, h1, h2⟩

/-- The loop over the cells of a leaf ends after its first pass: a point in the second cell is not
found. For a leaf without cells, cell 0 is returned. -/
theorem cell_fails :
    findCell 1 (fun _ => 1) (fun c => c == 5) (.leaf (fun _ => (0, 2)) [4, 5]) = -1 ∧
    findCell 1 (fun _ => 1) (fun _ => false) (.leaf (fun _ => (0, 2)) []) = 0 := by
  constructor <;> simp [findCell, minDist2, leafCell, List.range_succ] <;> norm_num

/-- A point in the first cell of the second leaf. -/
theorem sample_case :
    findCell 1 (fun _ => 3) (fun c => c == 5)
      (.inner (fun _ => (0, 4)) [.leaf (fun _ => (0, 2)) [4], .leaf (fun _ => (2, 4)) [5, 6]]) = 5 ∧
    minDist2 2 (fun _ => (0, 1)) (fun i => if i = 0 then 4 else -4) = 25 := by
  constructor
  · simp [findCell, findCellList, minDist2, leafCell, List.range_succ] <;> norm_num
  · simp [minDist2, List.range_succ]; norm_num

end PyNucleus.Props.C98
