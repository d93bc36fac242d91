import Verif.Spec.MeshSize
import Mathlib.Tactic.Linarith
import Mathlib.Tactic.Ring
import Mathlib.Tactic.IntervalCases

/-!
# Helper lemmas on sizes of meshes
-/

namespace PyNucleus.MeshSize

open PyNucleus.SimplexGeometry

/-- One step of all loops. -/
noncomputable def gen (H D V M : Coords ℝ → ℝ) (a : Acc) (x : Coords ℝ) : Acc :=
  { h := max a.h (H x), delta := max a.delta (D x), total := a.total + V x,
    hmin := min a.hmin (M x), volVec := a.volVec ++ [V x], hVec := a.hVec ++ [H x] }

theorem gen_spec (H D V M : Coords ℝ → ℝ) (cells : List (Coords ℝ)) (a : Acc) :
    let r := cells.foldl (gen H D V M) a
    r.volVec = a.volVec ++ cells.map V ∧ r.hVec = a.hVec ++ cells.map H ∧
    r.total = a.total + (cells.map V).sum ∧
    (a.h ≤ r.h ∧ (∀ x ∈ cells, H x ≤ r.h) ∧ (r.h = a.h ∨ ∃ x ∈ cells, r.h = H x)) ∧
    (a.delta ≤ r.delta ∧ (∀ x ∈ cells, D x ≤ r.delta) ∧
      (r.delta = a.delta ∨ ∃ x ∈ cells, r.delta = D x)) ∧
    (r.hmin ≤ a.hmin ∧ (∀ x ∈ cells, r.hmin ≤ M x) ∧
      (r.hmin = a.hmin ∨ ∃ x ∈ cells, r.hmin = M x)) := by
  induction cells generalizing a with
  | nil => simp
  | cons x l ih =>
    obtain ⟨h1, h2, h3, ⟨h4, h5, h6⟩, ⟨h7, h8, h9⟩, ⟨h10, h11, h12⟩⟩ := ih (gen H D V M a x)
    simp only [List.foldl_cons]
    refine ⟨by rw [h1]; simp [gen], by rw [h2]; simp [gen], by rw [h3]; simp [gen, add_assoc],
      ⟨le_trans (le_max_left _ _) h4, ?_, ?_⟩, ⟨le_trans (le_max_left _ _) h7, ?_, ?_⟩,
      ⟨le_trans h10 (min_le_left _ _), ?_, ?_⟩⟩
    · intro y hy
      rcases List.mem_cons.mp hy with rfl | hy
      · exact le_trans (le_max_right _ _) h4
      · exact h5 y hy
    · rcases h6 with h6 | ⟨y, hy, h6⟩
      · rw [h6]
        rcases max_choice a.h (H x) with h | h
        · exact Or.inl h
        · exact Or.inr ⟨x, List.mem_cons_self, h⟩
      · exact Or.inr ⟨y, List.mem_cons_of_mem _ hy, h6⟩
    · intro y hy
      rcases List.mem_cons.mp hy with rfl | hy
      · exact le_trans (le_max_right _ _) h7
      · exact h8 y hy
    · rcases h9 with h6 | ⟨y, hy, h6⟩
      · rw [h6]
        rcases max_choice a.delta (D x) with h | h
        · exact Or.inl h
        · exact Or.inr ⟨x, List.mem_cons_self, h⟩
      · exact Or.inr ⟨y, List.mem_cons_of_mem _ hy, h6⟩
    · intro y hy
      rcases List.mem_cons.mp hy with rfl | hy
      · exact le_trans h10 (min_le_right _ _)
      · exact h11 y hy
    · rcases h12 with h6 | ⟨y, hy, h6⟩
      · rw [h6]
        rcases min_choice a.hmin (M x) with h | h
        · exact Or.inl h
        · exact Or.inr ⟨x, List.mem_cons_self, h⟩
      · exact Or.inr ⟨y, List.mem_cons_of_mem _ hy, h6⟩

theorem dist_pt (n : Nat) (x : Coords ℝ) (i j : Nat) (hn : n = 1 ∨ n = 2 ∨ n = 3) :
    dist (pt n x i) (pt n x j) = Real.sqrt (dot n (diff x i j) (diff x i j)) := by
  rw [EuclideanSpace.dist_eq]
  congr 1
  rcases hn with rfl | rfl | rfl <;>
    simp [dot, diff, pt, Real.dist_eq, List.range_succ, Fin.sum_univ_succ, Fin.sum_univ_two] <;> ring

theorem dot_nonneg (n : Nat) (v : Vec ℝ) : 0 ≤ dot n v v := by
  unfold dot
  have : ∀ (l : List Nat) (s : ℝ), 0 ≤ s → 0 ≤ l.foldl (fun s i => s + v i * v i) s := by
    intro l
    induction l with
    | nil => intro s hs; exact hs
    | cons i l ih => intro s hs; exact ih _ (add_nonneg hs (mul_self_nonneg _))
  exact this _ _ le_rfl

/-- The diameter of a cell is the largest distance of two vertices. -/
theorem diam_cell (d n : Nat) (x : Coords ℝ) (M : ℝ)
    (hle : ∀ i j, i ≤ d → j ≤ d → dist (pt n x i) (pt n x j) ≤ M)
    (hex : ∃ i j, i ≤ d ∧ j ≤ d ∧ M = dist (pt n x i) (pt n x j)) :
    Metric.diam (cellSet d n x) = M := by
  unfold cellSet
  rw [convexHull_diam]
  obtain ⟨i, j, hi, hj, hM⟩ := hex
  refine le_antisymm ?_ ?_
  · refine Metric.diam_le_of_forall_dist_le (by rw [hM]; exact dist_nonneg) ?_
    rintro _ ⟨i, hi, rfl⟩ _ ⟨j, hj, rfl⟩
    exact hle i j hi hj
  · rw [hM]
    refine Metric.dist_le_diam_of_mem ?_ ⟨i, hi, rfl⟩ ⟨j, hj, rfl⟩
    exact ((Set.finite_le_nat d).image _).isBounded

theorem segment_eq (n : Nat) (x : Coords ℝ) (hn : n = 1 ∨ n = 2 ∨ n = 3) :
    segment n x = dist (pt n x 1) (pt n x 0) := by
  rw [dist_pt n x 1 0 hn]
  rcases hn with rfl | rfl | rfl
  · simp only [segment, if_true, dot, diff, List.range_succ, List.range_zero]
    simp [Real.sqrt_mul_self_eq_abs]
  · simp [segment, dot, diff, List.range_succ, sq]
  · simp [segment, dot, diff, List.range_succ, sq]

theorem diam_segment (n : Nat) (x : Coords ℝ) (hn : n = 1 ∨ n = 2 ∨ n = 3) :
    segment n x = Metric.diam (cellSet 1 n x) := by
  rw [segment_eq n x hn]
  refine (diam_cell 1 n x _ ?_ ⟨1, 0, le_rfl, by omega, rfl⟩).symm
  intro i j hi hj
  interval_cases i <;> interval_cases j <;> simp [dist_comm]

/-- Largest and smallest edge of a triangle. -/
noncomputable def H2 (n : Nat) (x : Coords ℝ) : ℝ :=
  max (max (dist (pt n x 2) (pt n x 1)) (dist (pt n x 2) (pt n x 0))) (dist (pt n x 1) (pt n x 0))

noncomputable def M2 (n : Nat) (x : Coords ℝ) : ℝ :=
  min (min (dist (pt n x 2) (pt n x 1)) (dist (pt n x 2) (pt n x 0))) (dist (pt n x 1) (pt n x 0))

theorem diam_triangle (n : Nat) (x : Coords ℝ) : Metric.diam (cellSet 2 n x) = H2 n x := by
  apply diam_cell
  · intro i j hi hj
    unfold H2
    have h21 := le_max_left (dist (pt n x 2) (pt n x 1)) (dist (pt n x 2) (pt n x 0))
    have h20 := le_max_right (dist (pt n x 2) (pt n x 1)) (dist (pt n x 2) (pt n x 0))
    have hm := le_max_left (max (dist (pt n x 2) (pt n x 1)) (dist (pt n x 2) (pt n x 0)))
      (dist (pt n x 1) (pt n x 0))
    have h10 := le_max_right (max (dist (pt n x 2) (pt n x 1)) (dist (pt n x 2) (pt n x 0)))
      (dist (pt n x 1) (pt n x 0))
    have h0 : (0:ℝ) ≤ dist (pt n x 1) (pt n x 0) := dist_nonneg
    interval_cases i <;> interval_cases j <;>
      (try simp only [dist_self, dist_comm (pt n x 0) (pt n x 1), dist_comm (pt n x 0) (pt n x 2),
        dist_comm (pt n x 1) (pt n x 2)]) <;> linarith
  · unfold H2
    rcases max_choice (max (dist (pt n x 2) (pt n x 1)) (dist (pt n x 2) (pt n x 0)))
      (dist (pt n x 1) (pt n x 0)) with h | h <;> rw [h]
    · rcases max_choice (dist (pt n x 2) (pt n x 1)) (dist (pt n x 2) (pt n x 0)) with h | h <;>
        rw [h]
      · exact ⟨2, 1, by omega, by omega, rfl⟩
      · exact ⟨2, 0, by omega, by omega, rfl⟩
    · exact ⟨1, 0, by omega, by omega, rfl⟩

theorem vol2_eq (x : Coords ℝ) :
    volume2Dnew (diff x 2 0) (diff x 1 0) = simplexVolume2D x := by
  unfold simplexVolume2D volume2Dnew
  rw [show diff x 1 0 0 * diff x 2 0 1 - diff x 1 0 1 * diff x 2 0 0
    = -(diff x 2 0 0 * diff x 1 0 1 - diff x 2 0 1 * diff x 1 0 0) by ring, abs_neg]

theorem vol23_eq (x : Coords ℝ) :
    volume2Din3D Real.sqrt (diff x 2 0) (diff x 1 0) = simplexVolume2Din3D Real.sqrt x := by
  unfold simplexVolume2Din3D volume2Din3D
  congr 2
  simp only [dot, List.range_succ, List.range_zero, List.nil_append, List.cons_append,
    List.foldl_cons, List.foldl_nil, cross]
  ring

theorem step2_eq (n : Nat) (hn : n = 2 ∨ n = 3) : step2 n = gen (H2 n)
    (fun x => H2 n x * cellSurface 2 n x / 4 / cellVolume 2 n x) (cellVolume 2 n) (M2 n) := by
  have hn' : n = 1 ∨ n = 2 ∨ n = 3 := Or.inr hn
  funext a x
  have e : edges2 n a.hmin [diff x 2 1, diff x 2 0, diff x 1 0]
      = (min a.hmin (M2 n x), H2 n x, cellSurface 2 n x) := by
    simp only [edges2, List.foldl_cons, List.foldl_nil, ← dist_pt n x _ _ hn']
    refine Prod.ext ?_ (Prod.ext ?_ ?_)
    · simp only [M2, min_assoc]
    · show max (max (max 0 _) _) _ = _
      rw [max_eq_right dist_nonneg]
      rfl
    · simp only [cellSurface, if_true]
      rw [dist_comm (pt n x 0) (pt n x 1), dist_comm (pt n x 1) (pt n x 2)]
      ring
  have v : (if n = 2 then volume2Dnew (diff x 2 0) (diff x 1 0)
    else volume2Din3D Real.sqrt (diff x 2 0) (diff x 1 0)) = cellVolume 2 n x := by
    rw [vol2_eq, vol23_eq]; rfl
  unfold step2 gen
  simp only [e, v]

/-- Squares of the largest and smallest edge of a tetrahedron. -/
noncomputable def edgeSq (x : Coords ℝ) : List ℝ :=
  [dist (pt 3 x 1) (pt 3 x 0), dist (pt 3 x 2) (pt 3 x 0), dist (pt 3 x 3) (pt 3 x 0),
   dist (pt 3 x 2) (pt 3 x 1), dist (pt 3 x 3) (pt 3 x 1), dist (pt 3 x 2) (pt 3 x 3)]

noncomputable def H3 (x : Coords ℝ) : ℝ := (edgeSq x).foldl max 0

noncomputable def M3 (x : Coords ℝ) : ℝ :=
  (edgeSq x).tail.foldl min (dist (pt 3 x 1) (pt 3 x 0))

theorem foldl_max_spec (l : List ℝ) (a : ℝ) : (a ≤ l.foldl max a) ∧ (∀ y ∈ l, y ≤ l.foldl max a) ∧
    (l.foldl max a = a ∨ l.foldl max a ∈ l) := by
  induction l generalizing a with
  | nil => simp
  | cons y l ih =>
    obtain ⟨h1, h2, h3⟩ := ih (max a y)
    simp only [List.foldl_cons]
    refine ⟨le_trans (le_max_left _ _) h1, ?_, ?_⟩
    · intro z hz
      rcases List.mem_cons.mp hz with rfl | hz
      · exact le_trans (le_max_right _ _) h1
      · exact h2 z hz
    · rcases h3 with h3 | h3
      · rw [h3]
        rcases max_choice a y with h | h
        · exact Or.inl h
        · exact Or.inr (by rw [h]; exact List.mem_cons_self)
      · exact Or.inr (List.mem_cons_of_mem _ h3)

theorem foldl_min_spec (l : List ℝ) (a : ℝ) : (l.foldl min a ≤ a) ∧ (∀ y ∈ l, l.foldl min a ≤ y) ∧
    (l.foldl min a = a ∨ l.foldl min a ∈ l) := by
  induction l generalizing a with
  | nil => simp
  | cons y l ih =>
    obtain ⟨h1, h2, h3⟩ := ih (min a y)
    simp only [List.foldl_cons]
    refine ⟨le_trans h1 (min_le_left _ _), ?_, ?_⟩
    · intro z hz
      rcases List.mem_cons.mp hz with rfl | hz
      · exact le_trans h1 (min_le_right _ _)
      · exact h2 z hz
    · rcases h3 with h3 | h3
      · rw [h3]
        rcases min_choice a y with h | h
        · exact Or.inl h
        · exact Or.inr (by rw [h]; exact List.mem_cons_self)
      · exact Or.inr (List.mem_cons_of_mem _ h3)

theorem mem_edgeSq (x : Coords ℝ) (i j : Nat) (hi : i ≤ 3) (hj : j ≤ 3) (h : i ≠ j) :
    dist (pt 3 x i) (pt 3 x j) ∈ edgeSq x := by
  unfold edgeSq
  interval_cases i <;> interval_cases j <;> first
    | exact absurd rfl h
    | simp [dist_comm]

theorem edgeSq_nonneg (x : Coords ℝ) : ∀ y ∈ edgeSq x, 0 ≤ y := by
  intro y hy
  simp only [edgeSq, List.mem_cons, List.not_mem_nil, or_false] at hy
  rcases hy with rfl | rfl | rfl | rfl | rfl | rfl <;> exact dist_nonneg

theorem of_mem_edgeSq (x : Coords ℝ) (y : ℝ) (hy : y ∈ edgeSq x) :
    ∃ i j, i ≤ 3 ∧ j ≤ 3 ∧ i ≠ j ∧ y = dist (pt 3 x i) (pt 3 x j) := by
  simp only [edgeSq, List.mem_cons, List.not_mem_nil, or_false] at hy
  rcases hy with rfl | rfl | rfl | rfl | rfl | rfl
  · exact ⟨1, 0, by omega, by omega, by omega, rfl⟩
  · exact ⟨2, 0, by omega, by omega, by omega, rfl⟩
  · exact ⟨3, 0, by omega, by omega, by omega, rfl⟩
  · exact ⟨2, 1, by omega, by omega, by omega, rfl⟩
  · exact ⟨3, 1, by omega, by omega, by omega, rfl⟩
  · exact ⟨2, 3, by omega, by omega, by omega, rfl⟩

theorem diam_tetrahedron (x : Coords ℝ) : Metric.diam (cellSet 3 3 x) = H3 x := by
  obtain ⟨h1, h2, h3⟩ := foldl_max_spec (edgeSq x) 0
  apply diam_cell
  · intro i j hi hj
    by_cases h : i = j
    · subst h; rw [dist_self]; exact h1
    · exact h2 _ (mem_edgeSq x i j hi hj h)
  · rcases h3 with h3 | h3
    · exact ⟨0, 0, by omega, by omega, by rw [dist_self]; exact h3⟩
    · obtain ⟨i, j, hi, hj, -, h⟩ := of_mem_edgeSq x _ h3
      exact ⟨i, j, hi, hj, h⟩

theorem dot3_eq (x : Coords ℝ) (i j : Nat) :
    dot 3 (diff x i j) (diff x i j) = dist (pt 3 x i) (pt 3 x j) ^ 2 := by
  rw [dist_pt 3 x i j (by simp), Real.sq_sqrt (dot_nonneg _ _)]

theorem max_sq (a b : ℝ) (ha : 0 ≤ a) (hb : 0 ≤ b) : max (a ^ 2) (b ^ 2) = max a b ^ 2 := by
  rcases le_total a b with h | h
  · rw [max_eq_right h, max_eq_right (pow_le_pow_left₀ ha h 2)]
  · rw [max_eq_left h, max_eq_left (pow_le_pow_left₀ hb h 2)]

theorem min_sq (a b : ℝ) (ha : 0 ≤ a) (hb : 0 ≤ b) : min (a ^ 2) (b ^ 2) = min a b ^ 2 := by
  rcases le_total a b with h | h
  · rw [min_eq_left h, min_eq_left (pow_le_pow_left₀ ha h 2)]
  · rw [min_eq_right h, min_eq_right (pow_le_pow_left₀ hb h 2)]

theorem foldl_sq_max (l : List ℝ) (a : ℝ) (ha : 0 ≤ a) (hl : ∀ y ∈ l, 0 ≤ y) :
    (l.map (· ^ 2)).foldl max (a ^ 2) = (l.foldl max a) ^ 2 := by
  induction l generalizing a with
  | nil => rfl
  | cons y l ih =>
    simp only [List.map_cons, List.foldl_cons]
    have hy := hl y List.mem_cons_self
    rw [max_sq a y ha hy, ih _ (le_max_of_le_left ha) (fun z hz => hl z (List.mem_cons_of_mem _ hz))]

theorem foldl_sq_min (l : List ℝ) (a : ℝ) (ha : 0 ≤ a) (hl : ∀ y ∈ l, 0 ≤ y) :
    (l.map (· ^ 2)).foldl min (a ^ 2) = (l.foldl min a) ^ 2 := by
  induction l generalizing a with
  | nil => rfl
  | cons y l ih =>
    simp only [List.map_cons, List.foldl_cons]
    have hy := hl y List.mem_cons_self
    rw [min_sq a y ha hy, ih _ (le_min ha hy) (fun z hz => hl z (List.mem_cons_of_mem _ hz))]

theorem edges3_eq (x : Coords ℝ) (m : ℝ) :
    edges3 m [diff x 1 0, diff x 2 0, diff x 3 0, diff x 2 1, diff x 3 1, diff x 2 3]
      = (min m (M3 x ^ 2), H3 x ^ 2) := by
  have hnn := edgeSq_nonneg x
  have h1 : H3 x ^ 2 = ((edgeSq x).map (· ^ 2)).foldl max 0 := by
    have := foldl_sq_max (edgeSq x) 0 le_rfl hnn
    rw [show (0:ℝ) ^ 2 = 0 by norm_num] at this
    exact this.symm
  have h2 : M3 x ^ 2 = ((edgeSq x).tail.map (· ^ 2)).foldl min (dist (pt 3 x 1) (pt 3 x 0) ^ 2) :=
    (foldl_sq_min (edgeSq x).tail _ dist_nonneg (fun y hy => hnn y (List.mem_of_mem_tail hy))).symm
  rw [h1, h2]
  simp only [edges3, List.foldl_cons, List.foldl_nil, dot3_eq, edgeSq, List.map_cons, List.map_nil,
    List.tail_cons]
  refine Prod.ext ?_ rfl
  simp only [min_assoc]

theorem vol3_surface (x : Coords ℝ) :
    volume2Din3D Real.sqrt (diff x 1 0) (diff x 2 0) + volume2Din3D Real.sqrt (diff x 1 0) (diff x 3 0) +
    volume2Din3D Real.sqrt (diff x 2 0) (diff x 3 0) + volume2Din3D Real.sqrt (diff x 2 1) (diff x 3 1)
    = cellSurface 3 3 x := rfl

theorem step3_eq : step3 = gen H3 (fun x => H3 x * cellSurface 3 3 x / 6 / cellVolume 3 3 x)
    (cellVolume 3 3) (fun x => M3 x ^ 2) := by
  funext a x
  have hH : 0 ≤ H3 x := (foldl_max_spec (edgeSq x) 0).1
  unfold step3 gen
  simp only [edges3_eq, Real.sqrt_sq hH, vol3_surface]
  rfl

theorem step1_fold (n : Nat) (cells : List (Coords ℝ)) (hn : n = 1 ∨ n = 2 ∨ n = 3) (a : Acc)
    (ha : a.delta = 0) :
    cells.foldl (step1 n) a = cells.foldl (gen (segment n) (fun _ => 0) (cellVolume 1 n) (segment n)) a
    := by
  induction cells generalizing a with
  | nil => rfl
  | cons x l ih =>
    simp only [List.foldl_cons]
    have : step1 n a x = gen (segment n) (fun _ => 0) (cellVolume 1 n) (segment n) a x := by
      unfold step1 gen
      simp [cellVolume, segment_eq n x hn, ha]
    rw [this, ih _ (by simp [gen, ha])]

end PyNucleus.MeshSize
