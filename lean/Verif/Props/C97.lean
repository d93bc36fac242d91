import Verif.Proof.MeshSize
import Mathlib.Tactic.NormNum

/-!
# C97: sizes of meshes
-/

namespace PyNucleus.Props.C97

open PyNucleus.SimplexGeometry PyNucleus.MeshSize

/-- The combinations of dimensions for which sizes are computed. -/
def Supported (d n : Nat) : Prop :=
  (d = 1 ∧ (n = 1 ∨ n = 2 ∨ n = 3)) ∨ (d = 2 ∧ (n = 2 ∨ n = 3)) ∨ (d = 3 ∧ n = 3)

/-- The values are those of a loop over the cells. -/
private theorem result (d n : Nat) (hs : Supported d n) (cells : List (Coords ℝ)) :
    ∃ r D M, hdelta d n cells = some r ∧
      (let g := cells.foldl (gen (fun x => Metric.diam (cellSet d n x)) D (cellVolume d n) M) init
       r.h = g.h ∧ r.total = g.total ∧ r.volVec = g.volVec ∧ r.hVec = g.hVec ∧
       (d = 3 → r.hmin = Real.sqrt g.hmin) ∧ (d ≠ 3 → r.hmin = g.hmin) ∧
       (d = 1 → r.delta = 1) ∧ (d ≠ 1 → r.delta = g.delta)) ∧
      (d ≠ 1 → D = fun x => Metric.diam (cellSet d n x) * cellSurface d n x / (2 * d) /
        cellVolume d n x) ∧
      (d = 1 → M = fun x => dist (pt n x 1) (pt n x 0)) ∧ (d = 2 → M = M2 n) ∧
      (d = 3 → M = fun x => M3 x ^ 2) := by
  rcases hs with ⟨rfl, hn⟩ | ⟨rfl, hn⟩ | ⟨rfl, rfl⟩
  · refine ⟨_, fun _ => 0, fun x => dist (pt n x 1) (pt n x 0), by unfold hdelta; rw [if_pos ⟨rfl, hn⟩],
      ?_, by simp, by simp, by simp, by simp⟩
    have e1 : (fun x => Metric.diam (cellSet 1 n x)) = segment n :=
      funext fun x => (diam_segment n x hn).symm
    have e2 : (fun x => dist (pt n x 1) (pt n x 0)) = segment n :=
      funext fun x => (segment_eq n x hn).symm
    rw [e1, e2, ← step1_fold n cells hn init rfl]
    simp
  · refine ⟨_, fun x => H2 n x * cellSurface 2 n x / 4 / cellVolume 2 n x, M2 n, by
      unfold hdelta; rw [if_neg (by omega), if_pos ⟨rfl, hn⟩], ?_, ?_, by simp, by simp, by simp⟩
    · rw [step2_eq n hn, show (fun x => Metric.diam (cellSet 2 n x)) = H2 n from
        funext fun x => diam_triangle n x]
      simp
    · intro _
      funext x
      rw [diam_triangle]
      norm_num
  · refine ⟨_, fun x => H3 x * cellSurface 3 3 x / 6 / cellVolume 3 3 x, fun x => M3 x ^ 2, by
      unfold hdelta; rw [if_neg (by omega), if_neg (by omega), if_pos ⟨rfl, rfl⟩], ?_, ?_, by simp,
      by simp, by simp⟩
    · rw [step3_eq, show (fun x => Metric.diam (cellSet 3 3 x)) = H3 from
        funext fun x => diam_tetrahedron x]
      simp
    · intro _
      funext x
      rw [diam_tetrahedron]
      norm_num

/-- Sizes of the cells and of the mesh: `hVector` has the diameters of the cells (the largest
distance of any two of their points), `h` is the largest of them; `volVector` has the volumes the
assembly uses, and `volume` is their sum. Other dimensions give no result. -/
theorem sizes (d n : Nat) (cells : List (Coords ℝ)) :
    (Supported d n → ∃ r, hdelta d n cells = some r ∧
      r.hVec = cells.map (fun x => Metric.diam (cellSet d n x)) ∧
      (∀ x ∈ cells, ∀ p ∈ cellSet d n x, ∀ q ∈ cellSet d n x, dist p q ≤ r.h) ∧
      (cells ≠ [] → ∃ x ∈ cells, r.h = Metric.diam (cellSet d n x)) ∧
      r.volVec = cells.map (cellVolume d n) ∧ r.total = (cells.map (cellVolume d n)).sum ∧
      (d = 1 → r.delta = 1)) ∧
    (¬ Supported d n → hdelta d n cells = none) := by
  constructor
  · intro hs
    obtain ⟨r, D, M, hr, ⟨h1, h2, h3, h4, -, -, h7, -⟩, -⟩ := result d n hs cells
    obtain ⟨g1, g2, g3, ⟨g4, g5, g6⟩, -⟩ :=
      gen_spec (fun x => Metric.diam (cellSet d n x)) D (cellVolume d n) M cells init
    refine ⟨r, hr, ?_, ?_, ?_, ?_, ?_, h7⟩
    · rw [h4, g2]; simp [init]
    · intro x hx p hp q hq
      rw [h1]
      refine le_trans (Metric.dist_le_diam_of_mem ?_ hp hq) (g5 x hx)
      unfold cellSet
      rw [isBounded_convexHull]
      exact ((Set.finite_le_nat d).image _).isBounded
    · intro hne
      rw [h1]
      rcases g6 with g6 | g6
      · obtain ⟨x, l, rfl⟩ := List.exists_cons_of_ne_nil hne
        refine ⟨x, List.mem_cons_self, le_antisymm ?_ (g5 x List.mem_cons_self)⟩
        rw [g6]
        exact Metric.diam_nonneg
      · exact g6
    · rw [h3, g1]; simp [init]
    · rw [h2, g3]; simp [init]
  · intro hs
    unfold hdelta Supported at *
    rw [if_neg (by tauto), if_neg (by tauto), if_neg (by tauto)]

/-- The smallest edge: no edge is shorter than `hmin`, and `hmin` is the length of an edge, if there
is an edge of length at most 100, in three dimensions at most 10. -/
theorem hmin_partial (d n : Nat) (hs : Supported d n) (cells : List (Coords ℝ)) :
    ∃ r, hdelta d n cells = some r ∧
      (∀ x ∈ cells, ∀ i j, i ≤ d → j ≤ d → i ≠ j → r.hmin ≤ dist (pt n x i) (pt n x j)) ∧
      ((∃ x ∈ cells, ∃ i j, i ≤ d ∧ j ≤ d ∧ i ≠ j ∧
          dist (pt n x i) (pt n x j) ≤ if d = 3 then 10 else 100) →
        ∃ x ∈ cells, ∃ i j, i ≤ d ∧ j ≤ d ∧ i ≠ j ∧ r.hmin = dist (pt n x i) (pt n x j)) := by
  obtain ⟨r, D, M, hr, ⟨-, -, -, -, h5, h6, -⟩, -, m1, m2, m3⟩ := result d n hs cells
  obtain ⟨-, -, -, -, -, ⟨g1, g2, g3⟩⟩ :=
    gen_spec (fun x => Metric.diam (cellSet d n x)) D (cellVolume d n) M cells init
  refine ⟨r, hr, ?_⟩
  -- `m x` is the shortest edge of a cell
  obtain ⟨m, hm1, hm2, hm3⟩ : ∃ m : Coords ℝ → ℝ,
      (∀ x i j, i ≤ d → j ≤ d → i ≠ j → m x ≤ dist (pt n x i) (pt n x j)) ∧
      (∀ x, ∃ i j, i ≤ d ∧ j ≤ d ∧ i ≠ j ∧ m x = dist (pt n x i) (pt n x j)) ∧
      ((∀ x ∈ cells, r.hmin ≤ m x) ∧
        (r.hmin = (if d = 3 then 10 else 100) ∨ ∃ x ∈ cells, r.hmin = m x)) := by
    rcases hs with ⟨rfl, hn⟩ | ⟨rfl, hn⟩ | ⟨rfl, rfl⟩
    · refine ⟨fun x => dist (pt n x 1) (pt n x 0), ?_, fun x => ⟨1, 0, by omega, by omega, by omega,
        rfl⟩, ?_, ?_⟩
      · intro x i j hi hj h
        interval_cases i <;> interval_cases j <;> simp_all [dist_comm]
      · intro x hx
        rw [h6 (by omega)]
        have := g2 x hx
        rw [congrFun (m1 rfl) x] at this
        exact this
      · rw [h6 (by omega)]
        rcases g3 with g3 | ⟨x, hx, g3⟩
        · exact Or.inl (by rw [g3]; simp [init])
        · exact Or.inr ⟨x, hx, by rw [g3, congrFun (m1 rfl) x]⟩
    · refine ⟨M2 n, ?_, ?_, ?_, ?_⟩
      · intro x i j hi hj h
        unfold M2
        have a1 := min_le_left (dist (pt n x 2) (pt n x 1)) (dist (pt n x 2) (pt n x 0))
        have a2 := min_le_right (dist (pt n x 2) (pt n x 1)) (dist (pt n x 2) (pt n x 0))
        have a3 := min_le_left (min (dist (pt n x 2) (pt n x 1)) (dist (pt n x 2) (pt n x 0)))
          (dist (pt n x 1) (pt n x 0))
        have a4 := min_le_right (min (dist (pt n x 2) (pt n x 1)) (dist (pt n x 2) (pt n x 0)))
          (dist (pt n x 1) (pt n x 0))
        interval_cases i <;> interval_cases j <;>
          (first
            | exact absurd rfl h
            | ((try simp only [dist_comm (pt n x 0) (pt n x 1), dist_comm (pt n x 0) (pt n x 2),
                dist_comm (pt n x 1) (pt n x 2)]); linarith))
      · intro x
        unfold M2
        rcases min_choice (min (dist (pt n x 2) (pt n x 1)) (dist (pt n x 2) (pt n x 0)))
          (dist (pt n x 1) (pt n x 0)) with h | h <;> rw [h]
        · rcases min_choice (dist (pt n x 2) (pt n x 1)) (dist (pt n x 2) (pt n x 0)) with h | h <;>
            rw [h]
          · exact ⟨2, 1, by omega, by omega, by omega, rfl⟩
          · exact ⟨2, 0, by omega, by omega, by omega, rfl⟩
        · exact ⟨1, 0, by omega, by omega, by omega, rfl⟩
      · intro x hx
        rw [h6 (by omega), ← m2 rfl]
        exact g2 x hx
      · rw [h6 (by omega), ← m2 rfl]
        simpa [init] using g3
    · have hM : ∀ x, 0 ≤ M3 x ∧ M3 x ∈ edgeSq x ∧ ∀ y ∈ edgeSq x, M3 x ≤ y := by
        intro x
        obtain ⟨b1, b2, b3⟩ := foldl_min_spec (edgeSq x).tail (dist (pt 3 x 1) (pt 3 x 0))
        have b4 : M3 x ∈ edgeSq x := by
          rcases b3 with b3 | b3
          · unfold M3; rw [b3]; unfold edgeSq; exact List.mem_cons_self
          · exact List.mem_of_mem_tail b3
        refine ⟨edgeSq_nonneg x _ b4, b4, fun y hy => ?_⟩
        have : edgeSq x = dist (pt 3 x 1) (pt 3 x 0) :: (edgeSq x).tail := rfl
        rw [this] at hy
        rcases List.mem_cons.mp hy with rfl | hy
        · exact b1
        · exact b2 y hy
      have hg0 := g3
      refine ⟨M3, fun x i j hi hj h => (hM x).2.2 _ (mem_edgeSq x i j hi hj h),
        fun x => of_mem_edgeSq x _ (hM x).2.1, ?_, ?_⟩
      · intro x hx
        rw [h5 rfl]
        have := g2 x hx
        rw [m3 rfl] at this ⊢
        refine le_trans (Real.sqrt_le_sqrt this) ?_
        rw [Real.sqrt_sq (hM x).1]
      · rw [h5 rfl, m3 rfl]
        rw [m3 rfl] at g3
        rcases g3 with g3 | ⟨x, hx, g3⟩
        · left
          rw [g3]
          simp only [init, if_true]
          rw [show (100:ℝ) = 10 ^ 2 by norm_num, Real.sqrt_sq (by norm_num)]
        · right
          exact ⟨x, hx, by rw [g3]; exact Real.sqrt_sq (hM x).1⟩
  refine ⟨fun x hx i j hi hj h => le_trans (hm3.1 x hx) (hm1 x i j hi hj h), ?_⟩
  rintro ⟨x, hx, i, j, hi, hj, hij, hle⟩
  rcases hm3.2 with h | ⟨y, hy, h⟩
  · obtain ⟨i', j', hi', hj', hij', he⟩ := hm2 x
    refine ⟨x, hx, i', j', hi', hj', hij', ?_⟩
    rw [← he]
    refine le_antisymm (hm3.1 x hx) ?_
    rw [h]
    exact le_trans (hm1 x i j hi hj hij) hle
  · obtain ⟨i', j', hi', hj', hij', he⟩ := hm2 y
    exact ⟨y, hy, i', j', hi', hj', hij', by rw [h, he]⟩

/-- The interval from 0 to 200 and a tetrahedron with edges of length 20 and more. -/
def sampleSegment : Coords ℝ := fun i _ => if i = 1 then 200 else 0

def sampleTet : Coords ℝ := fun i k => if i = k + 1 then 20 else 0

/-- Edges longer than 100, in three dimensions longer than 10, are not seen: `hmin` of an interval of
length 200 is 100, and `hmin` of a tetrahedron whose shortest edge is 20 is 10. -/
theorem hmin_fails :
    (∃ r, hdelta 1 1 [sampleSegment] = some r ∧ r.hmin = 100 ∧
      dist (pt 1 sampleSegment 1) (pt 1 sampleSegment 0) = 200) ∧
    (∃ r, hdelta 3 3 [sampleTet] = some r ∧ r.hmin = 10 ∧
      ∀ i j, i ≤ 3 → j ≤ 3 → i ≠ j → 20 ≤ dist (pt 3 sampleTet i) (pt 3 sampleTet j)) := by
  constructor
  · refine ⟨_, by unfold hdelta; rw [if_pos (by simp)], ?_, ?_⟩
    · simp only [List.foldl_cons, List.foldl_nil, step1, init, MeshSize.segment, sampleSegment]
      norm_num
    · rw [dist_pt 1 _ _ _ (by simp)]
      rw [show dot 1 (diff sampleSegment 1 0) (diff sampleSegment 1 0) = 200 ^ 2 by
        simp only [dot, diff, sampleSegment, List.range_succ, List.range_zero]; norm_num]
      exact Real.sqrt_sq (by norm_num)
  · refine ⟨_, by unfold hdelta; rw [if_neg (by omega), if_neg (by omega), if_pos ⟨rfl, rfl⟩], ?_, ?_⟩
    · simp only [List.foldl_cons, List.foldl_nil, step3, init, edges3, dot, diff, sampleTet,
        List.range_succ, List.range_zero, List.nil_append, List.cons_append]
      norm_num
      rw [show (100:ℝ) = 10 ^ 2 by norm_num, Real.sqrt_sq (by norm_num)]
    · intro i j hi hj h
      rw [dist_pt 3 _ _ _ (by simp), show (20:ℝ) = Real.sqrt (20 ^ 2) by
        rw [Real.sqrt_sq (by norm_num)]]
      apply Real.sqrt_le_sqrt
      interval_cases i <;> interval_cases j <;> first
        | exact absurd rfl h
        | (simp only [dot, diff, sampleTet, List.range_succ, List.range_zero, List.nil_append,
            List.cons_append, List.foldl_cons, List.foldl_nil]; norm_num)

/-- The shape of the cells: with `ρ = d · volume / surface`, the radius of the ball that touches all
facets, every cell has `diameter ≤ 2 ρ δ`, and some cell has equality. -/
theorem shape (d n : Nat) (hs : Supported d n) (hd : d ≠ 1) (cells : List (Coords ℝ))
    (hv : ∀ x ∈ cells, 0 < cellVolume d n x) (hS : ∀ x ∈ cells, 0 < cellSurface d n x)
    (hne : cells ≠ []) :
    ∃ r, hdelta d n cells = some r ∧
      (∀ x ∈ cells, Metric.diam (cellSet d n x) ≤
        2 * (d * cellVolume d n x / cellSurface d n x) * r.delta) ∧
      ∃ x ∈ cells, Metric.diam (cellSet d n x) =
        2 * (d * cellVolume d n x / cellSurface d n x) * r.delta := by
  obtain ⟨r, D, M, hr, ⟨-, -, -, -, -, -, -, h8⟩, hD, -⟩ := result d n hs cells
  obtain ⟨-, -, -, -, ⟨g1, g2, g3⟩, -⟩ :=
    gen_spec (fun x => Metric.diam (cellSet d n x)) D (cellVolume d n) M cells init
  have hd0 : (0:ℝ) < d := by
    rcases hs with h | h | h <;> simp [h.1]
  rw [← h8 hd] at g1 g2 g3
  rw [hD hd] at g2 g3
  have key : ∀ x ∈ cells, Metric.diam (cellSet d n x) = 2 * (d * cellVolume d n x / cellSurface d n x) *
      (Metric.diam (cellSet d n x) * cellSurface d n x / (2 * d) / cellVolume d n x) := by
    intro x hx
    have h1 := hv x hx
    have h2 := hS x hx
    field_simp
  have pos : ∀ x ∈ cells, 0 < 2 * (d * cellVolume d n x / cellSurface d n x) := fun x hx => by
    have h1 := hv x hx
    have h2 := hS x hx
    positivity
  refine ⟨r, hr, fun x hx => ?_, ?_⟩
  · conv => lhs; rw [key x hx]
    exact mul_le_mul_of_nonneg_left (g2 x hx) (pos x hx).le
  · rcases g3 with g3 | ⟨x, hx, g3⟩
    · obtain ⟨x, l, rfl⟩ := List.exists_cons_of_ne_nil hne
      refine ⟨x, List.mem_cons_self, ?_⟩
      have h0 : Metric.diam (cellSet d n x) * cellSurface d n x / (2 * d) / cellVolume d n x = 0 := by
        refine le_antisymm ?_ ?_
        · have := g2 x List.mem_cons_self
          rw [g3] at this
          exact this
        · have h1 := hv x List.mem_cons_self
          have h2 := hS x List.mem_cons_self
          have h3 : 0 ≤ Metric.diam (cellSet d n x) := Metric.diam_nonneg
          positivity
      rw [g3]
      conv => lhs; rw [key x List.mem_cons_self, h0]
      rfl
    · refine ⟨x, hx, ?_⟩
      rw [g3]
      exact key x hx

/-- Two intervals of length 1 and 2. -/
theorem sample_case :
    ∃ r, hdelta 1 1 [fun i _ => (i : ℝ), fun i _ => 2 * (i : ℝ)] = some r ∧ r.h = 2 ∧ r.hmin = 1 ∧
      r.total = 3 ∧ r.hVec = [1, 2] ∧ r.delta = 1 := by
  refine ⟨_, by unfold hdelta; rw [if_pos (by simp)], ?_, ?_, ?_, ?_, rfl⟩ <;>
  · simp only [List.foldl_cons, List.foldl_nil, step1, init, MeshSize.segment]
    norm_num

end PyNucleus.Props.C97
