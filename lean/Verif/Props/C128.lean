import Verif.Model.EdgeElements
import Verif.Proof.SimplexGeometry
import Verif.Spec.Barycentric
import Verif.Spec.SimplexPolynomial
import Mathlib.Algebra.Order.Ring.Rat
import Mathlib.Tactic.FieldSimp
import Mathlib.Tactic.Ring
import Mathlib.Tactic.LinearCombination
import Mathlib.Tactic.IntervalCases
import Mathlib.Tactic.NormNum

/-!
# C128: edge elements

Code modelled: see Verif/Model/EdgeElements.lean.

Full statement: the discrete gradient has in the row of an edge 1 for the vertex with the larger number and -1 for the other; its curl is zero;
the tangential components of the shape functions are continuous; and the local matrices are the integrals of products of the shape functions and
of products of their curls.  The last part is wrong unless the area of the triangle is 1/2 (`curlcurl_fails`): the entries lack the division by
four times the square of the area (`curlcurl_partial`).
-/

namespace PyNucleus.Props.C128

open PyNucleus.EdgeElements PyNucleus.SimplexGeometry
open PyNucleus.Simplex (IsGradient inner upper)

section gradient

variable {K : Type} [Field K]

/-- A numbering: `vd` gives the dof of a vertex, `E` the two vertices of an edge dof, the smaller number first. -/
structure Numbering (cells : List Cell) (vd : Int → Int) (E : Int → Int × Int) : Prop where
  vert : ∀ c ∈ cells, ∀ k, k < 3 → c.vertDof k = vd (c.verts k)
  inj : ∀ v w, 0 ≤ vd v → vd v = vd w → v = w
  distinct : ∀ c ∈ cells, ∀ j k, j < 3 → k < 3 → c.verts j = c.verts k → j = k
  edge : ∀ c ∈ cells, ∀ k, k < 3 → 0 ≤ c.edgeDof k →
    E (c.edgeDof k) = (min (c.verts (edge k).1) (c.verts (edge k).2), max (c.verts (edge k).1) (c.verts (edge k).2))

/-- The expected matrix. -/
def expected (vd : Int → Int) (E : Int → Int × Int) (I J : Int) : K :=
  if J = vd (E I).2 then 1 else if J = vd (E I).1 then -1 else 0

private theorem local_eq (cells : List Cell) (vd : Int → Int) (E : Int → Int × Int) (h : Numbering cells vd E) (c : Cell) (hc : c ∈ cells)
    (j k : Nat) (hj : j < 3) (hk : k < 3) (h1 : 0 ≤ c.edgeDof j) (h2 : 0 ≤ c.vertDof k) :
    (gradLocal c.verts : List K).getD (3 * j + k) 0 = expected vd E (c.edgeDof j) (c.vertDof k) := by
  have hv := h.vert c hc k hk
  have e : ∀ w, (c.vertDof k = vd w) ↔ c.verts k = w := fun w => by
    rw [hv]
    exact ⟨h.inj _ _ (hv ▸ h2), fun q => by rw [q]⟩
  unfold expected
  rw [h.edge c hc j hj h1]
  simp only [e]
  have d01 : c.verts 0 ≠ c.verts 1 := fun q => by simpa using h.distinct c hc 0 1 (by omega) (by omega) q
  have d12 : c.verts 1 ≠ c.verts 2 := fun q => by simpa using h.distinct c hc 1 2 (by omega) (by omega) q
  have d20 : c.verts 2 ≠ c.verts 0 := fun q => by simpa using h.distinct c hc 2 0 (by omega) (by omega) q
  unfold gradLocal
  interval_cases j <;> interval_cases k <;> simp only [edge]
  all_goals
    generalize c.verts 0 = a at *
    generalize c.verts 1 = b at *
    generalize c.verts 2 = d at *
    split_ifs <;> first | rfl | (exfalso; omega)

private theorem foldl_writes (l : List (Int × Int × K)) (A : Int → Int → K) (G : Int → Int → K) (h : ∀ w ∈ l, w.2.2 = G w.1 w.2.1) (I J : Int) :
    l.foldl (fun A w => setEntry A w.1 w.2.1 w.2.2) A I J = if ∃ w ∈ l, w.1 = I ∧ w.2.1 = J then G I J else A I J := by
  induction l generalizing A with
  | nil => simp
  | cons w l ih =>
    rw [List.foldl_cons, ih _ fun v hv => h v (List.mem_cons_of_mem _ hv)]
    by_cases h1 : ∃ v ∈ l, v.1 = I ∧ v.2.1 = J
    · obtain ⟨v, hv, hI⟩ := h1
      rw [if_pos ⟨v, hv, hI⟩, if_pos ⟨v, List.mem_cons_of_mem _ hv, hI⟩]
    · rw [if_neg h1]
      unfold setEntry
      by_cases h2 : w.1 = I ∧ w.2.1 = J
      · rw [if_pos ⟨h2.1.symm, h2.2.symm⟩, if_pos ⟨w, List.mem_cons_self, h2⟩, h w List.mem_cons_self, h2.1, h2.2]
      · rw [if_neg fun q => h2 ⟨q.1.symm, q.2.symm⟩, if_neg]
        rintro ⟨v, hv, hI⟩
        rcases List.mem_cons.mp hv with rfl | hv
        · exact h2 hI
        · exact h1 ⟨v, hv, hI⟩

/-- The entries that are set for a cell. -/
private def writes (c : Cell) : List (Int × Int × K) :=
  (List.range 3).flatMap fun j => if c.edgeDof j < 0 then [] else (List.range 3).flatMap fun k =>
    if c.vertDof k < 0 then [] else [(c.edgeDof j, c.vertDof k, (gradLocal c.verts).getD (3 * j + k) 0)]

private theorem setCell_eq (A : Int → Int → K) (c : Cell) : setCell A c = (writes c).foldl (fun A w => setEntry A w.1 w.2.1 w.2.2) A := by
  unfold setCell writes
  rw [List.foldl_flatMap]
  congr 1
  funext A j
  split
  · rfl
  · rw [List.foldl_flatMap]
    congr 1
    funext A k
    split <;> rfl

private theorem discreteGradient_eq (cells : List Cell) (A : Int → Int → K) :
    cells.foldl setCell A = (cells.flatMap writes).foldl (fun A w => setEntry A w.1 w.2.1 w.2.2) A := by
  rw [List.foldl_flatMap]
  congr 1
  funext A c
  exact setCell_eq A c

private theorem mem_writes (c : Cell) (w : Int × Int × K) : w ∈ writes c ↔ ∃ j k, j < 3 ∧ k < 3 ∧ 0 ≤ c.edgeDof j ∧ 0 ≤ c.vertDof k ∧
    w = (c.edgeDof j, c.vertDof k, (gradLocal c.verts).getD (3 * j + k) 0) := by
  unfold writes
  simp only [List.mem_flatMap, List.mem_range]
  constructor
  · rintro ⟨j, hj, h⟩
    split at h
    · simp at h
    · simp only [List.mem_flatMap, List.mem_range] at h
      obtain ⟨k, hk, h⟩ := h
      split at h
      · simp at h
      · exact ⟨j, k, hj, hk, by omega, by omega, by simpa using h⟩
  · rintro ⟨j, k, hj, hk, h1, h2, rfl⟩
    refine ⟨j, hj, ?_⟩
    rw [if_neg (by omega)]
    simp only [List.mem_flatMap, List.mem_range]
    refine ⟨k, hk, ?_⟩
    rw [if_neg (by omega)]
    simp

/-- Every row of the discrete gradient that belongs to an edge of some cell has 1 for the vertex with the larger number, -1 for the vertex with
the smaller number and zeros otherwise, whatever the number and order of the cells with this edge; vertices on the boundary have no column. -/
theorem gradient_rows (cells : List Cell) (vd : Int → Int) (E : Int → Int × Int) (h : Numbering cells vd E) (c : Cell) (hc : c ∈ cells)
    (j : Nat) (hj : j < 3) (h1 : 0 ≤ c.edgeDof j) (J : Int) (hJ : 0 ≤ J) :
    (discreteGradient cells (c.edgeDof j) J : K) = expected vd E (c.edgeDof j) J := by
  unfold discreteGradient
  rw [discreteGradient_eq, foldl_writes _ _ (expected vd E)]
  · split
    · rfl
    · next hn =>
      unfold expected
      have key : ∀ k, k < 3 → J ≠ vd (c.verts k) := fun k hk q => hn ⟨_, List.mem_flatMap.mpr ⟨c, hc, (mem_writes c _).mpr ⟨j, k, hj, hk, h1,
        by rw [h.vert c hc k hk]; omega, rfl⟩⟩, rfl, by rw [q]; exact h.vert c hc k hk⟩
      rw [h.edge c hc j hj h1]
      have a := key (edge j).1 (by unfold edge; split <;> decide)
      have b := key (edge j).2 (by unfold edge; split <;> decide)
      rw [if_neg, if_neg]
      · rcases min_choice (c.verts (edge j).1) (c.verts (edge j).2) with q | q <;> (rw [q]; assumption)
      · rcases max_choice (c.verts (edge j).1) (c.verts (edge j).2) with q | q <;> (rw [q]; assumption)
  · intro w hw
    obtain ⟨c, hc, hw⟩ := List.mem_flatMap.mp hw
    obtain ⟨j, k, hj, hk, h1, h2, rfl⟩ := (mem_writes c w).mp hw
    exact local_eq cells vd E h c hc j k hj hk h1 h2

/-- The curl of a gradient is zero, for every numbering of the vertices. -/
theorem curl_gradient (cell : Nat → Int) (u : Nat → K) :
    ∑ k ∈ Finset.range 3, (curlLocal cell).getD k 0 * ∑ j ∈ Finset.range 3, (gradLocal cell).getD (3 * k + j) 0 * u j = 0 := by
  simp only [Finset.sum_range_succ, Finset.sum_range_zero]
  unfold curlLocal gradLocal
  split_ifs <;> simp <;> ring

end gradient

variable {K : Type} [Field K] [LinearOrder K] [IsStrictOrderedRing K]

/-- What is known about the gradients. -/
private theorem setup (x g : Nat → Nat → K) (h : IsGradient 2 2 x g) : ∃ D : K, D ≠ 0 ∧ D * (g 0 0 * g 1 1 - g 0 1 * g 1 0) = 1 ∧
    (simplexVolumeAndProducts2D x).1 = |D| / 2 ∧
    (∀ c, c < 2 → g 2 c = -g 0 c - g 1 c) ∧
    (diff x 2 1 0 = D * g 0 1 ∧ diff x 2 1 1 = -(D * g 0 0)) ∧ (diff x 0 2 0 = D * g 1 1 ∧ diff x 0 2 1 = -(D * g 1 0)) ∧
    (diff x 1 0 0 = D * g 2 1 ∧ diff x 1 0 1 = -(D * g 2 0)) := by
  have h' := (isGradient_iff 2 2 x g).mp h
  have hD := det2_ne x g h'
  have r := rotated_eq x g h'
  have e : ∀ k, k ≤ 2 → _ := fun k hk => And.intro (r k 0 hk (by omega)) (r k 1 hk (by omega))
  have e0 := e 0 (by omega)
  have e1 := e 1 (by omega)
  have e2 := e 2 (by omega)
  simp only [simplexVolumeGradientsProducts2D, rotated, one_mul, neg_one_mul] at e0 e1 e2
  have s : ∀ c, c < 2 → g 2 c = -g 0 c - g 1 c := fun c hc => by
    have : c = 0 ∨ c = 1 := by omega
    apply mul_left_cancel₀ hD
    rcases this with rfl | rfl
    · rw [mul_sub, mul_neg, ← e0.1, ← e1.1, ← e2.1]; simp only [diff]; ring
    · rw [mul_sub, mul_neg, ← e0.2, ← e1.2, ← e2.2]; simp only [diff]; ring
  refine ⟨det2 x, hD, ?_, (volume2_eq x).2.1, s, ⟨e0.2, ?_⟩, ⟨e1.2, ?_⟩, e2.2, ?_⟩
  · apply mul_left_cancel₀ hD
    have : det2 x * (det2 x * (g 0 0 * g 1 1 - g 0 1 * g 1 0)) = (det2 x * g 0 0) * (det2 x * g 1 1) - (det2 x * g 0 1) * (det2 x * g 1 0) := by ring
    rw [this, ← e0.1, ← e0.2, ← e1.1, ← e1.2, mul_one]
    simp only [diff, det2]
    ring
  · rw [← e0.1, neg_neg]
  · rw [← e1.1, neg_neg]
  · rw [← e2.1, neg_neg]

/-- The edge function whose coefficients are the discrete gradient is half of the gradient, because of the factor in the shape functions. -/
theorem gradient_half (x g : Nat → Nat → K) (h : IsGradient 2 2 x g) (cell : Nat → Int) (u lam : Nat → K)
    (hl : lam 0 + lam 1 + lam 2 = 1) (i : Nat) (hi : i < 2) :
    ∑ k ∈ Finset.range 3, (∑ j ∈ Finset.range 3, (gradLocal cell).getD (3 * k + j) 0 * u j) * shape cell k lam g i
      = 1 / 2 * ∑ j ∈ Finset.range 3, u j * g j i := by
  obtain ⟨D, hD, -, -, s, -⟩ := setup x g h
  have l2 : lam 2 = 1 - lam 0 - lam 1 := by rw [← hl]; ring
  simp only [Finset.sum_range_succ, Finset.sum_range_zero]
  unfold shape gradLocal
  simp only [edge, s i hi, l2]
  split_ifs <;> simp <;> ring

/-- The curl of a shape function: it is linear in the barycentric coordinates, whose derivative in direction `c` is `fun i => g i c`. -/
def curlShape (cell : Nat → Int) (k : Nat) (g : Nat → Nat → K) : K :=
  shape cell k (fun i => g i 0) g 1 - shape cell k (fun i => g i 1) g 0

private theorem curlShape_eq (x g : Nat → Nat → K) (h : IsGradient 2 2 x g) : ∃ D : K, D ≠ 0 ∧ (simplexVolumeAndProducts2D x).1 = |D| / 2 ∧
    ∀ (cell : Nat → Int) (k : Nat), k < 3 → D * curlShape cell k g = (curlLocal cell).getD k 0 := by
  obtain ⟨D, hD, hc, hV, s, -⟩ := setup x g h
  refine ⟨D, hD, hV, fun cell k hk => ?_⟩
  unfold curlShape shape curlLocal
  have s0 := s 0 (by omega)
  have s1 := s 1 (by omega)
  interval_cases k <;> simp only [edge, s0, s1, List.getD_cons_zero, List.getD_cons_succ] <;> split_ifs <;>
    first | linear_combination hc | linear_combination -hc

/-- The curl of the edge function with coefficients `a` is the discrete curl of `a` divided by the determinant of the edges, which is twice the
area up to the sign. -/
theorem curl_value (x g : Nat → Nat → K) (h : IsGradient 2 2 x g) : ∃ D : K, |D| = 2 * (simplexVolumeAndProducts2D x).1 ∧ D ≠ 0 ∧
    ∀ (cell : Nat → Int) (a : Nat → K), ∑ k ∈ Finset.range 3, a k * curlShape cell k g
      = (∑ k ∈ Finset.range 3, (curlLocal cell).getD k 0 * a k) / D := by
  obtain ⟨D, hD, hV, hc⟩ := curlShape_eq x g h
  refine ⟨D, by rw [hV]; ring, hD, fun cell a => ?_⟩
  rw [eq_div_iff hD, Finset.sum_mul]
  exact Finset.sum_congr rfl fun k hk => by rw [← hc cell k (Finset.mem_range.mp hk)]; ring

/-- Tangential components: along the edge `m`, in the direction from the vertex with the smaller number to the one with the larger number, the
shape function of the edge is 1/2 and those of the other edges vanish.  These values are the same seen from the other cell of the edge. -/
theorem tangential (x g : Nat → Nat → K) (h : IsGradient 2 2 x g) (cell : Nat → Int) (lam : Nat → K) (k m : Nat) (hk : k < 3) (hm : m < 3)
    (hl : lam (edge m).1 + lam (edge m).2 = 1) (h0 : ∀ i, i < 3 → i ≠ (edge m).1 → i ≠ (edge m).2 → lam i = 0) :
    inner 2 (shape cell k lam g) (if cell (edge m).1 > cell (edge m).2 then diff x (edge m).1 (edge m).2 else diff x (edge m).2 (edge m).1)
      = if k = m then 1 / 2 else 0 := by
  have h' := (isGradient_iff 2 2 x g).mp h
  have e : ∀ i a b, i ≤ 2 → a ≤ 2 → b ≤ 2 → g i 0 * diff x a b 0 + g i 1 * diff x a b 1 = (if i = a then 1 else 0) - if i = b then 1 else 0 :=
    fun i a b hi ha hb => by have := h' i a b hi ha hb; rwa [dot_two] at this
  unfold inner shape
  simp only [Finset.sum_range_succ, Finset.sum_range_zero, zero_add]
  have key : ∀ p q a b : Nat, p ≤ 2 → q ≤ 2 → a ≤ 2 → b ≤ 2 → 1 / 2 * (lam p * g q 0 - lam q * g p 0) * diff x a b 0 +
      1 / 2 * (lam p * g q 1 - lam q * g p 1) * diff x a b 1
        = 1 / 2 * (lam p * ((if q = a then 1 else 0) - if q = b then 1 else 0) - lam q * ((if p = a then 1 else 0) - if p = b then 1 else 0)) :=
    fun p q a b hp hq ha hb => by rw [← e q a b hq ha hb, ← e p a b hp ha hb]; ring
  have neg : ∀ p q a b : Nat, p ≤ 2 → q ≤ 2 → a ≤ 2 → b ≤ 2 → -(1 / 2 * (lam p * g q 0 - lam q * g p 0)) * diff x a b 0 +
      -(1 / 2 * (lam p * g q 1 - lam q * g p 1)) * diff x a b 1
        = -(1 / 2 * (lam p * ((if q = a then 1 else 0) - if q = b then 1 else 0) - lam q * ((if p = a then 1 else 0) - if p = b then 1 else 0))) :=
    fun p q a b hp hq ha hb => by rw [← key p q a b hp hq ha hb]; ring
  interval_cases m <;> simp only [edge] at hl h0 ⊢
  on_goal 1 => have z := h0 2 (by omega) (by omega) (by omega)
  on_goal 2 => have z := h0 0 (by omega) (by omega) (by omega)
  on_goal 3 => have z := h0 1 (by omega) (by omega) (by omega)
  all_goals
    interval_cases k <;> simp only <;> split_ifs <;>
    first
    | (exfalso; omega)
    | rw [key _ _ _ _ (by omega) (by omega) (by omega) (by omega)]
    | rw [neg _ _ _ _ (by omega) (by omega) (by omega) (by omega)]
  all_goals
    simp only [z, if_true, if_neg (show ¬ (0 : Nat) = 1 by omega), if_neg (show ¬ (0 : Nat) = 2 by omega), if_neg (show ¬ (1 : Nat) = 0 by omega),
      if_neg (show ¬ (1 : Nat) = 2 by omega), if_neg (show ¬ (2 : Nat) = 0 by omega), if_neg (show ¬ (2 : Nat) = 1 by omega)]
    first
    | ring1
    | linear_combination (1 / 2) * hl

/-- The local mass matrix has the integrals of the products of the shape functions, by the rule with the midpoints of the edges, which is exact
for products of two affine functions. -/
theorem mass_integral (x g : Nat → Nat → K) (h : IsGradient 2 2 x g) (cell : Nat → Int) :
    massLocal x cell = (upper 3).map fun p => (simplexVolumeAndProducts2D x).1 / 3 *
      ∑ m ∈ Finset.range 3, inner 2 (shape cell p.1 (node m) g) (shape cell p.2 (node m) g) := by
  obtain ⟨D, hD, -, hV, s, ⟨a0, a1⟩, ⟨b0, b1⟩, c0, c1⟩ := setup x g h
  have s0 := s 0 (by omega)
  have s1 := s 1 (by omega)
  have hA : |D| ≠ 0 := abs_ne_zero.mpr hD
  have hA2 : D ^ 2 = |D| ^ 2 := (sq_abs D).symm
  have hu : upper 3 = [(0, 0), (0, 1), (0, 2), (1, 1), (1, 2), (2, 2)] := by decide
  rw [hu]
  unfold massLocal
  dsimp only
  rw [hV]
  simp only [simplexVolumeAndProducts2D, products3, dot_two, a0, a1, b0, b1, c0, c1, s0, s1]
  unfold inner shape
  simp only [Finset.sum_range_succ, Finset.sum_range_zero, zero_add, List.map_cons, List.map_nil, edge, node, List.getD_cons_zero, List.getD_cons_succ, s0, s1]
  have hA3 : ∀ a b c d : K, D * a * (D * b) = |D| ^ 2 * (a * b) ∧ -(D * c) * -(D * d) = |D| ^ 2 * (c * d) := fun a b c d =>
    ⟨by rw [← hA2]; ring, by rw [← hA2]; ring⟩
  simp only [(hA3 _ _ 0 0).1, (hA3 0 0 _ _).2]
  generalize |D| = A at hA
  simp only [List.cons.injEq, and_true]
  refine ⟨?_, ?_, ?_, ?_, ?_, ?_⟩ <;> split_ifs <;> field_simp <;> ring

/-- The entries of the local curl-curl matrix: the area times the product of the entries of the discrete curl. -/
theorem curlcurl_entries (x g : Nat → Nat → K) (h : IsGradient 2 2 x g) (cell : Nat → Int) :
    curlcurlLocal x cell = (upper 3).map fun p =>
      (simplexVolumeAndProducts2D x).1 * ((curlLocal cell).getD p.1 0 * (curlLocal cell).getD p.2 0) := by
  obtain ⟨D, hD, hc, hV, s, ⟨a0, a1⟩, ⟨b0, b1⟩, c0, c1⟩ := setup x g h
  have s0 := s 0 (by omega)
  have s1 := s 1 (by omega)
  have hA : |D| ≠ 0 := abs_ne_zero.mpr hD
  have hA2 : |D| ^ 2 = D ^ 2 := sq_abs D
  have hu : upper 3 = [(0, 0), (0, 1), (0, 2), (1, 1), (1, 2), (2, 2)] := by decide
  have hc2 : D ^ 4 * (g 0 0 * g 1 1 - g 0 1 * g 1 0) ^ 2 = |D| ^ 2 := by rw [hA2]; linear_combination (D ^ 2 * (D * (g 0 0 * g 1 1 - g 0 1 * g 1 0) + 1)) * hc
  rw [hu]
  unfold curlcurlLocal curlLocal
  dsimp only
  rw [hV]
  simp only [simplexVolumeAndProducts2D, products3, dot_two, a0, a1, b0, b1, c0, c1, s0, s1]
  simp only [List.map_cons, List.map_nil, List.getD_cons_zero, List.getD_cons_succ]
  generalize |D| = A at hA hc2
  have key : ∀ o t u : K, t = D ^ 4 * (g 0 0 * g 1 1 - g 0 1 * g 1 0) ^ 2 → u = o → o * (1 / 4 / (A / 2)) * t = A / 2 * u := fun o t u ht hu => by
    rw [ht, hc2, hu]; field_simp; ring
  have key1 : ∀ t u : K, t = D ^ 4 * (g 0 0 * g 1 1 - g 0 1 * g 1 0) ^ 2 → u = 1 → 1 / 4 / (A / 2) * t = A / 2 * u := fun t u ht hu => by
    rw [ht, hc2, hu]; field_simp; ring
  have keyn : ∀ o o' t u : K, t = -(D ^ 4 * (g 0 0 * g 1 1 - g 0 1 * g 1 0) ^ 2) → u = o * o' → -o * o' * (1 / 4 / (A / 2)) * t = A / 2 * u :=
    fun o o' t u ht hu => by rw [ht, hc2, hu]; field_simp; ring
  simp only [List.cons.injEq, and_true]
  refine ⟨key1 _ _ (by ring) ?_, key _ _ _ (by ring) rfl, keyn _ _ _ _ (by ring) rfl, key1 _ _ (by ring) ?_, keyn _ _ _ _ (by ring) rfl,
    key1 _ _ (by ring) ?_⟩ <;> split_ifs <;> ring

/-- The integrals of the products of the curls, which are constant. -/
def curlIntegral (x g : Nat → Nat → K) (cell : Nat → Int) (p : Nat × Nat) : K :=
  (simplexVolumeAndProducts2D x).1 * (curlShape cell p.1 g * curlShape cell p.2 g)

/-- The entries are the integrals times four times the square of the area. -/
theorem curlcurl_partial (x g : Nat → Nat → K) (h : IsGradient 2 2 x g) (cell : Nat → Int) :
    curlcurlLocal x cell = (upper 3).map fun p => 4 * (simplexVolumeAndProducts2D x).1 ^ 2 * curlIntegral x g cell p := by
  rw [curlcurl_entries x g h cell]
  obtain ⟨D, hD, hV, hc⟩ := curlShape_eq x g h
  refine List.map_congr_left fun p hp => ?_
  have hp' : p.1 < 3 ∧ p.2 < 3 := by
    have hu : ∀ p ∈ upper 3, p.1 < 3 ∧ p.2 < 3 := by decide
    exact hu p hp
  unfold curlIntegral
  rw [← hc cell p.1 hp'.1, ← hc cell p.2 hp'.2, hV]
  have : |D| ^ 2 = D ^ 2 := sq_abs D
  linear_combination (-(|D| / 2 * curlShape cell p.1 g * curlShape cell p.2 g)) * this

/-- Gradients are in the kernel of the local curl-curl matrix: every row times the discrete gradient is zero.  The entry for row `i` and column `j` of a
symmetric matrix is at position `sym i j` of the upper triangle. -/
def sym (i j : Nat) : Nat := (upper 3).idxOf (min i j, max i j)

theorem curlcurl_kernel (x g : Nat → Nat → K) (h : IsGradient 2 2 x g) (cell : Nat → Int) (u : Nat → K) (i : Nat) (hi : i < 3) :
    ∑ k ∈ Finset.range 3, (curlcurlLocal x cell).getD (sym i k) 0 * ∑ j ∈ Finset.range 3, (gradLocal cell).getD (3 * k + j) 0 * u j = 0 := by
  have e : ∀ k, k < 3 → (curlcurlLocal x cell).getD (sym i k) 0
      = (simplexVolumeAndProducts2D x).1 * (curlLocal cell).getD i 0 * (curlLocal cell).getD k 0 := fun k hk => by
    rw [curlcurl_entries x g h cell]
    have hu : upper 3 = [(0, 0), (0, 1), (0, 2), (1, 1), (1, 2), (2, 2)] := by decide
    unfold sym
    rw [hu]
    interval_cases i <;> interval_cases k <;> simp [List.idxOf_cons] <;> ring
  have := curl_gradient cell u
  calc _ = ∑ k ∈ Finset.range 3, (simplexVolumeAndProducts2D x).1 * (curlLocal cell).getD i 0 *
        ((curlLocal cell).getD k 0 * ∑ j ∈ Finset.range 3, (gradLocal cell).getD (3 * k + j) 0 * u j) :=
        Finset.sum_congr rfl fun k hk => by rw [e k (Finset.mem_range.mp hk)]; ring
    _ = 0 := by rw [← Finset.mul_sum, this, mul_zero]

/-- A triangle with legs of length 2. -/
def tri : Nat → Nat → ℚ
  | 1, 0 => 2
  | 2, 1 => 2
  | _, _ => 0

/-- Its gradients. -/
def triGrad : Nat → Nat → ℚ
  | 0, _ => -1 / 2
  | 1, 0 => 1 / 2
  | 2, 1 => 1 / 2
  | _, _ => 0

/-- Numbers of its vertices. -/
def triCell : Nat → Int
  | 0 => 4
  | 1 => 9
  | _ => 2

theorem tri_gradient : IsGradient 2 2 tri triGrad := by
  intro i j k hi hj hk
  interval_cases i <;> interval_cases j <;> interval_cases k <;> simp [Finset.sum_range_succ, tri, triGrad]

/-- The local curl-curl matrix does not have the integrals of the products of the curls: for the triangle with legs of length 2 the first entry is
2, the integral 1/8. -/
theorem curlcurl_fails : IsGradient 2 2 tri triGrad ∧ (curlcurlLocal tri triCell).getD 0 0 = 2 ∧ curlIntegral tri triGrad triCell (0, 0) = 1 / 8 := by
  refine ⟨tri_gradient, ?_, ?_⟩
  · decide +kernel
  · decide +kernel

/-- Two triangles with a common edge between the vertices 1 and 2; vertex 0 is on the boundary. -/
def c1 : Cell := ⟨fun k => [0, 1, 2].getD k 0, fun k => [5, 6, -1].getD k 0, fun k => [-1, 0, 1].getD k 0⟩
def c2 : Cell := ⟨fun k => [2, 1, 3].getD k 0, fun k => [6, 7, 8].getD k 0, fun k => [1, 0, 2].getD k 0⟩

theorem sample_case :
    Numbering [c1, c2] (fun v => v - 1) (fun I => if I = 5 then (0, 1) else if I = 6 then (1, 2) else if I = 7 then (1, 3) else (2, 3)) ∧
    (List.range 3).map (fun J => (discreteGradient [c1, c2] 6 J : ℚ)) = [-1, 1, 0] ∧
    (List.range 3).map (fun J => (discreteGradient [c1, c2] 5 J : ℚ)) = [1, 0, 0] ∧
    (curlLocal triCell : List ℚ) = [1, -1, 1] ∧ (massLocal tri triCell).getD 1 0 = 0 ∧ (massLocal tri triCell).getD 0 0 = 1 / 12 := by
  refine ⟨⟨?_, ?_, ?_, ?_⟩, by decide +kernel, by decide +kernel, by decide +kernel, by decide +kernel, by decide +kernel⟩
  · intro c hc k hk
    simp only [List.mem_cons, List.not_mem_nil, or_false] at hc
    rcases hc with rfl | rfl <;> interval_cases k <;> rfl
  · intro v w _ h; omega
  · intro c hc j k hj hk h
    simp only [List.mem_cons, List.not_mem_nil, or_false] at hc
    rcases hc with rfl | rfl <;> interval_cases j <;> interval_cases k <;> first | rfl | (exact absurd h (by decide))
  · intro c hc k hk h
    simp only [List.mem_cons, List.not_mem_nil, or_false] at hc
    rcases hc with rfl | rfl <;> interval_cases k <;> first | rfl | (exact absurd h (by decide))

end PyNucleus.Props.C128
