import Mathlib.Analysis.SpecialFunctions.Trigonometric.Basic
import Mathlib.Tactic.Linarith
import Mathlib.Tactic.NormNum
import Verif.Proof.Transfer

/-!
# C63 Chebyshev interpolation in clusters
-/

namespace PyNucleus.Props.C63

open PyNucleus.Transfer

/-- The cosines of `build` 2026, `enterLeafValues` 1265 and `assembleFarFieldInteractions` 2178. -/
noncomputable def cosines (m i : Nat) : ℝ := Real.cos ((2 * ((m - i : ℕ) : ℝ) - 1) / (2 * m) * Real.pi)

/-- The nodes increase and lie in the interior of the box. -/
theorem nodes_in_box (m : Nat) (b : Box ℝ) (q : Nat) (hb : b.lo q < b.hi q) :
    (∀ i < m, b.lo q < nodes (cosines m) b i q ∧ nodes (cosines m) b i q < b.hi q) ∧ (∀ j < m, ∀ i < j, nodes (cosines m) b i q < nodes (cosines m) b j q) := by
  have ang : ∀ i < m, 0 < (2 * ((m - i : ℕ) : ℝ) - 1) / (2 * m) * Real.pi ∧ (2 * ((m - i : ℕ) : ℝ) - 1) / (2 * m) * Real.pi < Real.pi := by
    intro i hi
    have h1 : (1 : ℝ) ≤ ((m - i : ℕ) : ℝ) := by exact_mod_cast (show 1 ≤ m - i by omega)
    have h2 : ((m - i : ℕ) : ℝ) ≤ m := by exact_mod_cast (show m - i ≤ m by omega)
    have hm : (0 : ℝ) < 2 * m := by linarith
    have hp := Real.pi_pos
    refine ⟨mul_pos (div_pos (by linarith) hm) hp, ?_⟩
    have : (2 * ((m - i : ℕ) : ℝ) - 1) / (2 * m) < 1 := by rw [div_lt_one hm]; linarith
    nlinarith
  have mono : ∀ j < m, ∀ i < j, cosines m i < cosines m j := by
    intro j hj i hij
    apply Real.cos_lt_cos_of_nonneg_of_le_pi (ang j hj).1.le (ang i (by omega)).2.le
    have h1 : ((m - j : ℕ) : ℝ) < ((m - i : ℕ) : ℝ) := by exact_mod_cast (show m - j < m - i by omega)
    have hm : (0 : ℝ) < 2 * m := by
      have : (0 : ℝ) < m := by exact_mod_cast (show 0 < m by omega)
      linarith
    apply mul_lt_mul_of_pos_right _ Real.pi_pos
    apply div_lt_div_of_pos_right _ hm
    linarith
  have bd : ∀ i < m, -1 < cosines m i ∧ cosines m i < 1 := by
    intro i hi
    constructor
    · rw [← Real.cos_pi]
      exact Real.cos_lt_cos_of_nonneg_of_le_pi (ang i hi).1.le le_rfl (ang i hi).2
    · rw [← Real.cos_zero]
      exact Real.cos_lt_cos_of_nonneg_of_le_pi le_rfl (ang i hi).2.le (ang i hi).1
  constructor
  · intro i hi
    have := bd i hi
    constructor <;> (unfold nodes; nlinarith)
  · intro j hj i hij
    have := mono j hj i hij
    unfold nodes
    nlinarith

variable {K : Type} [Field K] [LinearOrder K] [IsStrictOrderedRing K]

/-- The cosines are distinct and the box is not degenerate. -/
def Good (dim m : Nat) (eta : Nat → K) (b : Box K) : Prop := 1 ≤ m ∧ (∀ i < m, ∀ j < m, eta i = eta j → i = j) ∧ ∀ l < dim, b.lo l < b.hi l

theorem good_real (dim m : Nat) (b : Box ℝ) (hm : 1 ≤ m) (hb : ∀ l < dim, b.lo l < b.hi l) : Good dim m (cosines m) b := by
  refine ⟨hm, ?_, hb⟩
  intro i hi j hj e
  have h := (nodes_in_box m ⟨fun _ => 0, fun _ => 1⟩ 0 (by norm_num)).2
  rcases lt_trichotomy i j with h1 | h1 | h1
  · have := h j hj i h1; simp [nodes, e] at this
  · exact h1
  · have := h i hi j h1; simp [nodes, e] at this

theorem distinct_of_good {dim m : Nat} {eta : Nat → K} {b : Box K} (h : Good dim m eta b) : Distinct dim m (nodes eta b) := by
  intro l hl i hi j hj e
  apply h.2.1 i hi j hj
  have hb : (b.hi l - b.lo l) * (1 / 2) ≠ 0 := by
    have := h.2.2 l hl
    have h2 : 0 < b.hi l - b.lo l := sub_pos.2 this
    positivity
  have := mul_left_cancel₀ hb (add_right_cancel e)
  exact add_right_cancel this

/-- Differences are zero or larger than the tolerance. -/
def Apart (tol a b : K) : Prop := a = b ∨ tol < |a - b|

/-- All coordinates of the points where `enterLeafValues` evaluates are apart from the nodes. -/
def CellsApart (tol : K) (dim m : Nat) (eta : Nat → K) (b : Box K) (R : Rule K) (cells : List (Cell K)) : Prop :=
  ∀ c ∈ cells, ∀ j < R.numNodes, ∀ l < dim, ∀ i < m, Apart tol (c.x j l) (nodes eta b i l)

theorem points_getD {dim m : Nat} (hm : 1 ≤ m) (hd : 1 ≤ dim) (eta : Nat → K) (b : Box K) (k : Nat) (hk : k < m ^ dim) :
    (points dim m eta b).getD k [] = (List.range dim).map fun l => nodes eta b (((tuples m dim).getD k []).getD l 0) l := by
  rw [points, multi_eq m dim hm hd, List.getD_eq_getElem _ _ (by rw [List.length_map, tuples_length]; exact hk), List.getElem_map,
    List.getD_eq_getElem _ _ (by rw [tuples_length]; exact hk)]

theorem build_getD {tol : K} {dim mP mC : Nat} (hP : 1 ≤ mP) (hC : 1 ≤ mC) (hd : 1 ≤ dim) (etaP etaC : Nat → K) (boxP boxC : Box K) (k n : Nat) (hk : k < mP ^ dim) (hn : n < mC ^ dim) :
    ((build tol dim mP mC etaP etaC boxP boxC).getD k []).getD n 0 =
      transferEntry tol dim mP (nodes etaP boxP) (nodes etaC boxC) ((tuples mP dim).getD k []) ((tuples mC dim).getD n []) := by
  rw [build, multi_eq mP dim hP hd, multi_eq mC dim hC hd, getD_map _ _ _ _ [] (by rw [tuples_length]; exact hk), getD_map _ _ _ _ [] (by rw [tuples_length]; exact hn)]

theorem getD_mem {m dim k : Nat} (hk : k < m ^ dim) : ∀ l < dim, ((tuples m dim).getD k []).getD l 0 < m := by
  apply tuples_mem
  rw [List.getD_eq_getElem _ _ (by rw [tuples_length]; exact hk)]
  exact List.getElem_mem _

theorem build_eq_tens {tol : K} (ht : 0 ≤ tol) {dim mP mC : Nat} (hd : 1 ≤ dim) {etaP etaC : Nat → K} {boxP boxC : Box K} (hP : Good dim mP etaP boxP) (hC : 1 ≤ mC)
    (hsep : ∀ l < dim, ∀ i < mP, ∀ j < mC, Apart tol (nodes etaP boxP i l) (nodes etaC boxC j l)) {k n : Nat} (hk : k < mP ^ dim) (hn : n < mC ^ dim) :
    ((build tol dim mP mC etaP etaC boxP boxC).getD k []).getD n 0 =
      tens dim mP (nodes etaP boxP) ((tuples mP dim).getD k []) fun l => nodes etaC boxC (((tuples mC dim).getD n []).getD l 0) l := by
  rw [build_getD hP.1 hC hd _ _ _ _ _ _ hk hn]
  apply transferEntry_eq (distinct_of_good hP) (getD_mem hk)
  · rw [abs_zero]; exact not_lt.2 ht
  · intro l hl; exact hsep l hl _ (getD_mem hk l hl) _ (getD_mem hn l hl)

theorem sum_range_tuples (m dim : Nat) (F : List Nat → K) : ∑ k ∈ Finset.range (m ^ dim), F ((tuples m dim).getD k []) = ((tuples m dim).map F).sum := by
  rw [← sum_getD [] F, tuples_length]

/-- The transfer matrix has the right shape and transports the values of a polynomial of degree less than the order of the parent exactly from the nodes of the parent to those of the child,
if coordinates of nodes of parent and child are equal or more than the tolerance apart. -/
theorem transfer_partial (tol : K) (ht : 0 ≤ tol) (dim mP mC : Nat) (hd : 1 ≤ dim) (etaP etaC : Nat → K) (boxP boxC : Box K) (hP : Good dim mP etaP boxP) (hC : 1 ≤ mC)
    (hsep : ∀ l < dim, ∀ i < mP, ∀ j < mC, Apart tol (nodes etaP boxP i l) (nodes etaC boxC j l)) :
    (build tol dim mP mC etaP etaC boxP boxC).length = mP ^ dim ∧ (∀ row ∈ build tol dim mP mC etaP etaC boxP boxC, row.length = mC ^ dim) ∧
    ∀ f, IsPoly dim mP f → ∀ n < mC ^ dim,
      ∑ k ∈ Finset.range (mP ^ dim), ((build tol dim mP mC etaP etaC boxP boxC).getD k []).getD n 0 * f ((points dim mP etaP boxP).getD k []) = f ((points dim mC etaC boxC).getD n []) := by
  refine ⟨?_, ?_, ?_⟩
  · rw [build, List.length_map, multi_eq mP dim hP.1 hd, tuples_length]
  · intro row hrow
    rw [build] at hrow
    obtain ⟨I, _, rfl⟩ := List.mem_map.1 hrow
    rw [List.length_map, multi_eq mC dim hC hd, tuples_length]
  · intro f hf n hn
    rw [points_getD hC hd _ _ _ hn, ← tens_interp (distinct_of_good hP) hf, ← sum_range_tuples]
    apply Finset.sum_congr rfl
    intro k hk
    have hk := Finset.mem_range.1 hk
    rw [build_eq_tens ht hd hP hC hsep hk hn, points_getD hP.1 hd _ _ _ hk]

/-- Quadrature of `f` times the basis function of the dof in position `p`, over the cells of the leaf. -/
def moment (dim : Nat) (R : Rule K) (dofs : List Int) (cells : List (Cell K)) (p : Nat) (f : List K → K) : K :=
  (cells.map fun c => ((List.range R.dofsPerElement).map fun k => if 0 ≤ c.dof k ∧ dofs[p]? = some (c.dof k) then
    ((List.range R.numNodes).map fun j => c.vol * R.PHI k j * R.weight j * f ((List.range dim).map fun l => c.x j l)).sum else 0).sum).sum

theorem findIdx?_iff {dofs : List Int} (hn : dofs.Nodup) (d : Int) (p : Nat) : dofs.findIdx? (· = d) = some p ↔ dofs[p]? = some d := by
  rw [List.findIdx?_eq_some_iff_getElem]
  constructor
  · rintro ⟨h, h1, _⟩
    rw [List.getElem?_eq_getElem h]; simpa using h1
  · intro h
    obtain ⟨hp, e⟩ := List.getElem?_eq_some_iff.1 h
    refine ⟨hp, by simpa using e, ?_⟩
    intro j hj
    simp only [Bool.not_eq_true', decide_eq_false_iff_not, ← e, decide_eq_true_eq]
    intro h2
    have := (List.Nodup.getElem_inj_iff hn).1 h2
    omega

omit [LinearOrder K] [IsStrictOrderedRing K] in
theorem contrib_moment (dim : Nat) (R : Rule K) {dofs : List Int} (hn : dofs.Nodup) (cells : List (Cell K)) (p : Nat) (f : List K → K) :
    ((contrib R dofs cells p).map fun e => e.1 * f ((List.range dim).map e.2)).sum = moment dim R dofs cells p f := by
  rw [contrib, sum_flatMap', moment]
  congr 1
  apply List.map_congr_left
  intro c _
  rw [sum_flatMap']
  congr 1
  apply List.map_congr_left
  intro k _
  simp only [findIdx?_iff hn]
  by_cases h0 : c.dof k < 0
  · rw [if_pos h0, if_neg (by omega)]; rfl
  · rw [if_neg h0]
    by_cases h1 : dofs[p]? = some (c.dof k)
    · rw [if_pos h1, if_pos ⟨by omega, h1⟩, List.map_map]; rfl
    · rw [if_neg h1, if_neg (by simp [h1])]; rfl

omit [LinearOrder K] [IsStrictOrderedRing K] in
theorem contrib_mem {R : Rule K} {dofs : List Int} {cells : List (Cell K)} {p : Nat} {e : K × (Nat → K)} (h : e ∈ contrib R dofs cells p) : ∃ c ∈ cells, ∃ j < R.numNodes, e.2 = c.x j := by
  rw [contrib, List.mem_flatMap] at h
  obtain ⟨c, hc, h⟩ := h
  rw [List.mem_flatMap] at h
  obtain ⟨k, _, h⟩ := h
  split at h
  · simp at h
  · split at h
    · obtain ⟨j, hj, rfl⟩ := List.mem_map.1 h
      exact ⟨c, hc, j, by simpa using hj, rfl⟩
    · simp at h

theorem leaf_tens {tol : K} {dim m : Nat} (hd : 1 ≤ dim) {eta : Nat → K} {box : Box K} (hg : Good dim m eta box) {R : Rule K} {dofs : List Int} {cells : List (Cell K)}
    (hsep : CellsApart tol dim m eta box R cells) (p r : Nat) (hr : r < m ^ dim) :
    enterLeaf tol dim m eta box R dofs cells p r = ((contrib R dofs cells p).map fun e => e.1 * tens dim m (nodes eta box) ((tuples m dim).getD r []) e.2).sum := by
  rw [enterLeaf_eq hg.1 hd _ _ _ _ _ _ _ hr]
  congr 1
  apply List.map_congr_left
  intro e he
  obtain ⟨c, hc, j, hj, e2⟩ := contrib_mem he
  rw [leafPoly_eq (distinct_of_good hg) (getD_mem hr)]
  intro l hl
  rw [e2]
  exact hsep c hc j hj l hl _ (getD_mem hr l hl)

/-- The values of a leaf integrate the interpolant: weighted with the values of a polynomial in the nodes they give the quadrature of basis function times polynomial. -/
theorem leaf_partial (tol : K) (dim m : Nat) (hd : 1 ≤ dim) (eta : Nat → K) (box : Box K) (hg : Good dim m eta box) (R : Rule K) (dofs : List Int) (hn : dofs.Nodup) (cells : List (Cell K))
    (hsep : CellsApart tol dim m eta box R cells) (p : Nat) (f : List K → K) (hf : IsPoly dim m f) :
    ∑ r ∈ Finset.range (m ^ dim), enterLeaf tol dim m eta box R dofs cells p r * f ((points dim m eta box).getD r []) = moment dim R dofs cells p f := by
  rw [← contrib_moment dim R hn]
  have : ∀ e : K × (Nat → K), e.1 * f ((List.range dim).map e.2) =
      ((tuples m dim).map fun a => e.1 * (tens dim m (nodes eta box) a e.2 * f ((List.range dim).map fun l => nodes eta box (a.getD l 0) l))).sum := by
    intro e
    rw [list_mul_sum, tens_interp (distinct_of_good hg) hf]
  simp only [this]
  rw [list_sum_comm, ← sum_range_tuples]
  apply Finset.sum_congr rfl
  intro r hr
  have hr := Finset.mem_range.1 hr
  rw [leaf_tens hd hg hsep p r hr, points_getD hg.1 hd _ _ _ hr, mul_comm, ← list_mul_sum]
  congr 1
  apply List.map_congr_left
  intro e _
  ring

/-- Transport to the parent gives the values that would be computed with the box of the parent, if the order of the parent is not larger than that of the child. -/
theorem nested_partial (tol tol' : K) (ht : 0 ≤ tol) (dim mP mC : Nat) (hd : 1 ≤ dim) (etaP etaC : Nat → K) (boxP boxC : Box K) (hP : Good dim mP etaP boxP) (hC : Good dim mC etaC boxC) (hle : mP ≤ mC)
    (hsep : ∀ l < dim, ∀ i < mP, ∀ j < mC, Apart tol (nodes etaP boxP i l) (nodes etaC boxC j l)) (R : Rule K) (dofs : List Int) (cells : List (Cell K))
    (h1 : CellsApart tol' dim mP etaP boxP R cells) (h2 : CellsApart tol' dim mC etaC boxC R cells) (p k : Nat) (hk : k < mP ^ dim) :
    ∑ n ∈ Finset.range (mC ^ dim), ((build tol dim mP mC etaP etaC boxP boxC).getD k []).getD n 0 * enterLeaf tol' dim mC etaC boxC R dofs cells p n =
      enterLeaf tol' dim mP etaP boxP R dofs cells p k := by
  rw [leaf_tens hd hP h1 p k hk]
  have hpoly := tens_isPoly (distinct_of_good hP) hle (getD_mem hk)
  have : ∀ e : K × (Nat → K), e.1 * tens dim mP (nodes etaP boxP) ((tuples mP dim).getD k []) e.2 = ((tuples mC dim).map fun a => e.1 * (tens dim mC (nodes etaC boxC) a e.2 *
      tens dim mP (nodes etaP boxP) ((tuples mP dim).getD k []) fun l => nodes etaC boxC (a.getD l 0) l)).sum := by
    intro e
    have h := tens_interp (distinct_of_good hC) hpoly e.2
    have hl : ∀ x : Nat → K, tens dim mP (nodes etaP boxP) ((tuples mP dim).getD k []) (fun l => ((List.range dim).map x).getD l 0) = tens dim mP (nodes etaP boxP) ((tuples mP dim).getD k []) x := by
      intro x
      apply Finset.prod_congr rfl
      intro l hl
      dsimp only; rw [getD_range_map _ _ _ _ (Finset.mem_range.1 hl)]
    simp only [hl] at h
    rw [list_mul_sum, h]
  simp only [this]
  rw [list_sum_comm, ← sum_range_tuples]
  apply Finset.sum_congr rfl
  intro n hn
  have hn := Finset.mem_range.1 hn
  rw [leaf_tens hd hC h2 p n hn, build_eq_tens ht hd hP hC.1 hsep hk hn, ← list_mul_sum]
  congr 1
  apply List.map_congr_left
  intro e _
  ring

theorem interpolant_getD (bem : Bool) (kernel : List K → List K → K) (xs ys : List (List K)) (a b : Nat) (ha : a < xs.length) (hb : b < ys.length) :
    ((interpolant bem kernel xs ys).getD a []).getD b 0 = (if bem then 1 else -2) * kernel (xs.getD a []) (ys.getD b []) := by
  rw [interpolant, getD_map _ _ _ _ [] ha, getD_map _ _ _ _ [] hb]
  split <;> ring

/-- Far-field entries: for a kernel that is a polynomial in each argument the values of the two leaves and the interpolant give the double quadrature of the kernel times both basis functions (times `-2`). -/
theorem farfield_partial (tol : K) (dim m1 m2 : Nat) (hd : 1 ≤ dim) (eta1 eta2 : Nat → K) (box1 box2 : Box K) (hg1 : Good dim m1 eta1 box1) (hg2 : Good dim m2 eta2 box2)
    (R : Rule K) (dofs1 dofs2 : List Int) (hn1 : dofs1.Nodup) (hn2 : dofs2.Nodup) (cells1 cells2 : List (Cell K)) (h1 : CellsApart tol dim m1 eta1 box1 R cells1)
    (h2 : CellsApart tol dim m2 eta2 box2 R cells2) (bem : Bool) (kernel : List K → List K → K) (hk1 : ∀ y, IsPoly dim m1 fun x => kernel x y) (hk2 : ∀ x, IsPoly dim m2 (kernel x)) (p q : Nat) :
    ∑ a ∈ Finset.range (m1 ^ dim), ∑ b ∈ Finset.range (m2 ^ dim), enterLeaf tol dim m1 eta1 box1 R dofs1 cells1 p a *
        ((interpolant bem kernel (points dim m1 eta1 box1) (points dim m2 eta2 box2)).getD a []).getD b 0 * enterLeaf tol dim m2 eta2 box2 R dofs2 cells2 q b =
      (if bem then 1 else -2) * moment dim R dofs1 cells1 p fun x => moment dim R dofs2 cells2 q fun y => kernel x y := by
  have e1 : ∀ a ∈ Finset.range (m1 ^ dim), ∑ b ∈ Finset.range (m2 ^ dim), enterLeaf tol dim m1 eta1 box1 R dofs1 cells1 p a *
        ((interpolant bem kernel (points dim m1 eta1 box1) (points dim m2 eta2 box2)).getD a []).getD b 0 * enterLeaf tol dim m2 eta2 box2 R dofs2 cells2 q b =
      (if bem then 1 else -2) * (enterLeaf tol dim m1 eta1 box1 R dofs1 cells1 p a * moment dim R dofs2 cells2 q (kernel ((points dim m1 eta1 box1).getD a []))) := by
    intro a ha
    rw [← leaf_partial tol dim m2 hd eta2 box2 hg2 R dofs2 hn2 cells2 h2 q _ (hk2 _), Finset.mul_sum, Finset.mul_sum]
    apply Finset.sum_congr rfl
    intro b hb
    rw [interpolant_getD _ _ _ _ _ _ (by rw [points, List.length_map, multi_eq m1 dim hg1.1 hd, tuples_length]; exact Finset.mem_range.1 ha)
      (by rw [points, List.length_map, multi_eq m2 dim hg2.1 hd, tuples_length]; exact Finset.mem_range.1 hb)]
    ring
  rw [Finset.sum_congr rfl e1, ← Finset.mul_sum]
  congr 1
  simp only [← contrib_moment dim R hn2]
  have sw : ∀ G : List K → List K → K, (moment dim R dofs1 cells1 p fun x => ((contrib R dofs2 cells2 q).map fun e => e.1 * G x ((List.range dim).map e.2)).sum) =
      ((contrib R dofs2 cells2 q).map fun e => e.1 * moment dim R dofs1 cells1 p fun x => G x ((List.range dim).map e.2)).sum := by
    intro G
    simp only [← contrib_moment dim R hn1, ← list_mul_sum]
    rw [list_sum_comm]
    congr 1
    apply List.map_congr_left
    intro e _
    congr 1
    apply List.map_congr_left
    intro e' _
    ring
  rw [sw]
  simp only [← leaf_partial tol dim m1 hd eta1 box1 hg1 R dofs1 hn1 cells1 h1 p _ (hk1 _), Finset.mul_sum]
  simp only [← list_mul_sum]
  simp only [← list_sum_range]
  rw [list_sum_comm]
  congr 1
  apply List.map_congr_left
  intro e _
  congr 1
  apply List.map_congr_left
  intro a _
  ring

/-! ## The tolerance is absolute -/

def halves (i : Nat) : ℚ := if i = 0 then -(1 / 2) else 1 / 2

def tiny : Box ℚ := ⟨fun _ => 0, fun _ => 1 / 10 ^ 9⟩

def tinyChild : Box ℚ := ⟨fun _ => 0, fun _ => 1 / (2 * 10 ^ 9)⟩

theorem isPoly_const (dim m : Nat) (hm : 1 ≤ m) (c : ℚ) (hd : 1 ≤ dim) : IsPoly dim m fun _ => c := by
  refine ⟨[fun l => if l = 0 then Polynomial.C c else 1], ?_, ?_⟩
  · intro t ht l _
    rw [List.mem_singleton] at ht
    subst ht
    have h1 : (Polynomial.C c).degree < m := lt_of_le_of_lt Polynomial.degree_C_le (by exact_mod_cast (show 0 < m by omega))
    have h2 : (1 : Polynomial ℚ).degree < m := lt_of_le_of_lt Polynomial.degree_one_le (by exact_mod_cast (show 0 < m by omega))
    dsimp only
    split
    · exact h1
    · exact h2
  · intro x
    obtain ⟨d, rfl⟩ : ∃ d, dim = d + 1 := ⟨dim - 1, by omega⟩
    rw [List.map_singleton, List.sum_singleton, Finset.prod_range_succ']
    simp

/-- For a box of width `1e-9` all entries of the transfer matrix are one: not even constants are reproduced. -/
theorem tolerance_fails : ∃ (etaP etaC : Nat → ℚ) (boxP boxC : Box ℚ), Good 1 2 etaP boxP ∧ Good 1 2 etaC boxC ∧ boxP.lo 0 ≤ boxC.lo 0 ∧ boxC.hi 0 ≤ boxP.hi 0 ∧
    ∃ f, IsPoly 1 2 f ∧ ∃ n < 2 ^ 1, ∑ k ∈ Finset.range (2 ^ 1), ((build (1 / 10 ^ 8) 1 2 2 etaP etaC boxP boxC).getD k []).getD n 0 * f ((points 1 2 etaP boxP).getD k []) ≠
      f ((points 1 2 etaC boxC).getD n []) := by
  have he : ∀ i < 2, ∀ j < 2, halves i = halves j → i = j := by decide +kernel
  refine ⟨halves, halves, tiny, tinyChild, ⟨by decide, he, ?_⟩, ⟨by decide, he, ?_⟩, by decide +kernel, by decide +kernel, fun _ => 1, isPoly_const 1 2 (by decide) 1 (by decide), 0, by decide, ?_⟩
  · intro l _; show (0 : ℚ) < 1 / 10 ^ 9; norm_num
  · intro l _; show (0 : ℚ) < 1 / (2 * 10 ^ 9); norm_num
  · have : build (1 / 10 ^ 8) 1 2 2 halves halves tiny tinyChild = [[1, 1], [1, 1]] := by decide +kernel
    rw [this]
    simp [Finset.sum_range_succ]

/-! ## Concrete instances -/

def unit : Box ℚ := ⟨fun _ => 0, fun _ => 1⟩

def half : Box ℚ := ⟨fun _ => 0, fun l => if l = 0 then 1 / 2 else 1⟩

theorem unit_good : Good 2 2 halves unit := ⟨by decide, by decide +kernel, fun l _ => by show (0 : ℚ) < 1; norm_num⟩

theorem half_good : Good 2 2 halves half := ⟨by decide, by decide +kernel, fun l _ => by show (0 : ℚ) < if l = 0 then 1 / 2 else 1; split <;> norm_num⟩

example : ∀ l < 2, ∀ i < 2, ∀ j < 2, Apart (1 / 10 ^ 8) (nodes halves unit i l) (nodes halves half j l) := by
  unfold Apart; decide +kernel

example : build (1 / 10 ^ 8) 2 2 2 halves halves unit half = [[5 / 4, 0, 3 / 4, 0], [0, 5 / 4, 0, 3 / 4], [-1 / 4, 0, 1 / 4, 0], [0, -1 / 4, 0, 1 / 4]] := by decide +kernel

/-- Two quadrature nodes, two dofs per cell. -/
def rule : Rule ℚ := ⟨2, fun _ => 1 / 2, 2, fun k j => if k = j then 3 / 4 else 1 / 4⟩

def cell : Cell ℚ := ⟨1 / 4, fun k => if k = 0 then 5 else -1, fun j l => (j + 1) / 3 + l / 7⟩

example : CellsApart (1 / 10 ^ 9) 2 2 halves unit rule [cell] ∧ CellsApart (1 / 10 ^ 9) 2 2 halves half rule [cell] := by
  unfold CellsApart Apart; simp only [List.mem_singleton, forall_eq]; decide +kernel

example : (List.range 4).map (enterLeaf (1 / 10 ^ 9) 2 2 halves unit rule [3, 5] [cell] 1) = [85 / 2016, 83 / 2016, 11 / 2016, 73 / 2016] := by decide +kernel

end PyNucleus.Props.C63
