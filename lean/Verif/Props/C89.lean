import Verif.Proof.MeshTransform
import Mathlib.Tactic.Linarith
import Mathlib.Tactic.Ring
import Mathlib.Tactic.FieldSimp
import Mathlib.Analysis.SpecialFunctions.Trigonometric.Bounds

/-!
# C89: transformations of new vertices

Full statement: refinement with a transformation moves new vertices only.  The radial one keeps directions and takes the mean of the distances from
the origin, so that discs and spheres stay discs and spheres; the graded ones keep the grading.  No vertex is lost to divisions by zero.
-/

namespace PyNucleus.Props.C89

open PyNucleus.MeshTransform PyNucleus.Refine PyNucleus.Props.C42

section
variable {d dim : Nat} {V V' W : List (List ℝ)} {cells cells' : List (List Nat)} {m : Nat → Nat → Nat} {lookup : List ((Nat × Nat) × Nat)}

/-- Distance of a vertex from the origin. -/
noncomputable def dist0 (dim : Nat) (V : List (List ℝ)) (v : Nat) : ℝ := size dim (V.getD v [])

theorem dist0_sq (dim : Nat) (V : List (List ℝ)) (v : Nat) : 0 ≤ dist0 dim V v ∧ dist0 dim V v ^ 2 = ∑ k ∈ Finset.range dim, coords V v k ^ 2 := ⟨size_nonneg _ _, size_sq _ _⟩

theorem dist0_zero (dim : Nat) (V : List (List ℝ)) (v : Nat) : dist0 dim V v = 0 ↔ ∀ k, k < dim → coords V v k = 0 := size_zero _ _

theorem radialPlace_symm (dim : Nat) (radius : ℝ) (a b r : List ℝ) : radialPlace dim radius a b r = radialPlace dim radius b a r := by
  unfold radialPlace
  rw [add_comm (1 / 2 * size dim a)]

theorem dist0_mid (hR : Refined d dim V cells m V' cells' lookup) {a b : Nat} (he : IsEdge cells a b) :
    dist0 dim V' (m a b) = 0 ↔ ∀ k, k < dim → coords V a k + coords V b k = 0 := by
  rw [dist0_zero]
  constructor
  · intro h k hk
    have := h k hk
    rw [hR.mid a b he] at this
    linarith
  · intro h k hk
    rw [hR.mid a b he, h k hk, zero_div]

/-- Result of the radial transformation. -/
structure Radial (dim : Nat) (radius : ℝ) (V : List (List ℝ)) (cells : List (List Nat)) (m : Nat → Nat → Nat) (V' W : List (List ℝ)) : Prop where
  length : W.length = V'.length
  rows : ∀ r ∈ W, r.length = dim
  old : ∀ v, v < V.length → W.getD v [] = V.getD v []
  direction : ∀ a b, IsEdge cells a b → ∃ t, 0 < t ∧ ∀ k, k < dim → coords W (m a b) k = t * (coords V a k + coords V b k)
  distance : ∀ a b, IsEdge cells a b → dist0 dim W (m a b) = if 0 < radius ∧ radius ≤ dist0 dim V' (m a b) then dist0 dim V' (m a b) else (dist0 dim V a + dist0 dim V b) / 2

/-- If no edge has its midpoint at the origin, the radial transformation works. -/
theorem radial_works (hR : Refined d dim V cells m V' cells' lookup) (hc : IsMesh d V.length cells) (radius : ℝ)
    (h0 : ∀ a b, IsEdge cells a b → ∃ k, k < dim ∧ coords V a k + coords V b k ≠ 0) : ∃ W, radial dim radius V' lookup = some W ∧ Radial dim radius V cells m V' W := by
  have hne : ∀ a b, IsEdge cells a b → dist0 dim V' (m a b) ≠ 0 := fun a b he hz => by
    obtain ⟨k, hk, hk0⟩ := h0 a b he
    exact hk0 ((dist0_mid hR he).1 hz k hk)
  have hpos : ∀ a b, IsEdge cells a b → 0 < (dist0 dim V a + dist0 dim V b) / 2 := fun a b he => by
    obtain ⟨k, hk, hk0⟩ := h0 a b he
    have h1 := (dist0_sq dim V a).1
    have h2 := (dist0_sq dim V b).1
    by_contra hcon
    have ha : dist0 dim V a = 0 := by linarith
    have hb : dist0 dim V b = 0 := by linarith
    exact hk0 (by rw [(dist0_zero dim V a).1 ha k hk, (dist0_zero dim V b).1 hb k hk, add_zero])
  obtain ⟨W, hW, hM⟩ := moved_some hR hc (radialPlace dim radius) (radialPlace_symm dim radius) (fun a b he => by
    unfold radialPlace
    split
    · rfl
    · unfold rescale
      rw [if_neg (show ¬ size dim (V'.getD (m a b) []) = 0 from hne a b he)]
      rfl)
  have hrow' : ∀ i, i < V'.length → (V'.getD i []).length = dim := fun i hi => hR.row _ (by rw [List.getD_eq_getElem _ _ hi]; exact List.getElem_mem hi)
  have key : ∀ a b, IsEdge cells a b → (W.getD (m a b) []).length = dim ∧ (∃ t, 0 < t ∧ ∀ k, k < dim → coords W (m a b) k = t * (coords V a k + coords V b k)) ∧
      dist0 dim W (m a b) = if 0 < radius ∧ radius ≤ dist0 dim V' (m a b) then dist0 dim V' (m a b) else (dist0 dim V a + dist0 dim V b) / 2 := by
    intro a b he
    have hn := hM.new a b he
    unfold radialPlace at hn
    by_cases hcase : 0 < radius ∧ ¬ size dim (V'.getD (m a b) []) < radius
    · rw [if_pos hcase] at hn
      injection hn with hn
      rw [if_pos ⟨hcase.1, not_lt.1 hcase.2⟩]
      unfold dist0 coords
      rw [← hn]
      refine ⟨hrow' _ (hR.range a b he).2, ⟨1 / 2, by norm_num, fun k _ => ?_⟩, rfl⟩
      have := hR.mid a b he k
      unfold coords at this
      rw [this]; ring
    · rw [if_neg hcase] at hn
      have hp := hpos a b he
      obtain ⟨h1, h2, h3, h4⟩ := rescale_some (by unfold dist0 at hp; linarith) hn
      rw [if_neg (by rintro ⟨x, y⟩; exact hcase ⟨x, not_lt.2 y⟩)]
      refine ⟨h2, ⟨(dist0 dim V a + dist0 dim V b) / 2 / dist0 dim V' (m a b) / 2, ?_, fun k hk => ?_⟩, by unfold dist0 at *; rw [h3]; ring⟩
      · have := lt_of_le_of_ne (size_nonneg dim (V'.getD (m a b) [])) (Ne.symm h1)
        unfold dist0 at *
        positivity
      · unfold dist0
        rw [show coords W (m a b) k = (W.getD (m a b) []).getD k 0 from rfl, h4 k hk, show (V'.getD (m a b) []).getD k 0 = coords V' (m a b) k from rfl, hR.mid a b he k]
        ring
  refine ⟨W, hW, hM.length, ?_, hM.old, fun a b he => (key a b he).2.1, fun a b he => (key a b he).2.2⟩
  intro r hr
  obtain ⟨i, hi, rfl⟩ := List.getElem_of_mem hr
  rw [← List.getD_eq_getElem W [] hi]
  rcases Nat.lt_or_ge i V.length with h | h
  · rw [hM.old i h, ← old_row hR h]
    exact hrow' i (by have := old_le hR; omega)
  · obtain ⟨a, b, he, rfl⟩ := hR.onto i h (by rw [← hM.length]; exact hi)
    exact (key a b he).1

/-- If an edge has its midpoint at the origin, a coordinate becomes NaN. -/
theorem radial_nan (hR : Refined d dim V cells m V' cells' lookup) (hc : IsMesh d V.length cells) (radius : ℝ) {a b : Nat} (he : IsEdge cells a b)
    (h0 : ∀ k, k < dim → coords V a k + coords V b k = 0) : radial dim radius V' lookup = none := by
  refine moved_none hR hc _ (radialPlace_symm dim radius) he ?_
  have hz : size dim (V'.getD (m a b) []) = 0 := (dist0_mid hR he).2 h0
  unfold radialPlace
  rw [if_neg (by rw [hz]; rintro ⟨x, y⟩; exact y x)]
  unfold rescale
  rw [if_pos hz]

/-- Bounds on distances are kept: discs stay in the disc, shells in the shell, spheres on the sphere. -/
theorem shell (hR : Refined d dim V cells m V' cells' lookup) (hc : IsMesh d V.length cells) (hW : Radial dim 0 V cells m V' W) {r R : ℝ}
    (h : ∀ v, v < V.length → r ≤ dist0 dim V v ∧ dist0 dim V v ≤ R) : ∀ v, v < W.length → r ≤ dist0 dim W v ∧ dist0 dim W v ≤ R := by
  intro v hv
  rcases Nat.lt_or_ge v V.length with h' | h'
  · unfold dist0; rw [hW.old v h']; exact h v h'
  · obtain ⟨a, b, he, rfl⟩ := hR.onto v h' (by rw [← hW.length]; exact hv)
    rw [hW.distance a b he, if_neg (by rintro ⟨x, _⟩; exact lt_irrefl _ x)]
    obtain ⟨h1, h2⟩ := edge_lt hc he
    have := h a h1
    have := h b h2
    constructor <;> linarith

/-- With a radius: a hole of this radius is kept. -/
theorem hole (hR : Refined d dim V cells m V' cells' lookup) (hc : IsMesh d V.length cells) {radius : ℝ} (hW : Radial dim radius V cells m V' W) (hr : 0 < radius)
    (h : ∀ v, v < V.length → radius ≤ dist0 dim V v) : (∀ v, v < W.length → radius ≤ dist0 dim W v) ∧
      ∀ a b, IsEdge cells a b → dist0 dim V a = radius → dist0 dim V b = radius → dist0 dim V' (m a b) < radius → dist0 dim W (m a b) = radius := by
  constructor
  · intro v hv
    rcases Nat.lt_or_ge v V.length with h' | h'
    · unfold dist0; rw [hW.old v h']; exact h v h'
    · obtain ⟨a, b, he, rfl⟩ := hR.onto v h' (by rw [← hW.length]; exact hv)
      rw [hW.distance a b he]
      split
      · rename_i hx; exact hx.2
      · obtain ⟨h1, h2⟩ := edge_lt hc he
        have := h a h1
        have := h b h2
        linarith
  · intro a b he ha hb hlt
    rw [hW.distance a b he, if_neg (by rintro ⟨_, x⟩; exact absurd hlt (not_lt.2 x)), ha, hb]
    ring

/-- For every cell there is a half space through the origin that contains its vertices other than the origin in its interior, and at most one vertex is at the
origin. -/
def Pointed (dim : Nat) (V : List (List ℝ)) (cells : List (List Nat)) : Prop := ∀ c ∈ cells,
  (∃ l : Nat → ℝ, ∀ v ∈ c, (∀ k, k < dim → coords V v k = 0) ∨ 0 < ∑ k ∈ Finset.range dim, l k * coords V v k) ∧
    ∀ v ∈ c, ∀ w ∈ c, v ≠ w → (∀ k, k < dim → coords V v k = 0) → ∃ k, k < dim ∧ coords V w k ≠ 0

theorem pointed_pos {V : List (List ℝ)} {cells : List (List Nat)} (h : Pointed dim V cells) {c : List Nat} (hc : c ∈ cells) {l : Nat → ℝ}
    (hl : ∀ v ∈ c, (∀ k, k < dim → coords V v k = 0) ∨ 0 < ∑ k ∈ Finset.range dim, l k * coords V v k) {a b : Nat} (ha : a ∈ c) (hb : b ∈ c) (hab : a ≠ b) :
    0 < ∑ k ∈ Finset.range dim, l k * (coords V a k + coords V b k) := by
  have hz : ∀ v, (∀ k, k < dim → coords V v k = 0) → ∑ k ∈ Finset.range dim, l k * coords V v k = 0 := fun v hv =>
    Finset.sum_eq_zero fun k hk => by rw [hv k (Finset.mem_range.1 hk), mul_zero]
  simp only [mul_add, Finset.sum_add_distrib]
  rcases hl a ha with h1 | h1
  · rcases hl b hb with h2 | h2
    · obtain ⟨k, hk, hk0⟩ := (h c hc).2 a ha b hb hab h1
      exact absurd (h2 k hk) hk0
    · rw [hz a h1, zero_add]; exact h2
  · rcases hl b hb with h2 | h2
    · rw [hz b h2, add_zero]; exact h1
    · exact add_pos h1 h2

/-- Then no edge has its midpoint at the origin. -/
theorem pointed_edge (h : Pointed dim V cells) {a b : Nat} (he : IsEdge cells a b) : ∃ k, k < dim ∧ coords V a k + coords V b k ≠ 0 := by
  obtain ⟨hne, c, hc, ha, hb⟩ := he
  obtain ⟨l, hl⟩ := (h c hc).1
  have := pointed_pos h hc hl ha hb hne
  by_contra hcon
  push Not at hcon
  rw [Finset.sum_eq_zero fun k hk => by rw [hcon k (Finset.mem_range.1 hk), mul_zero]] at this
  exact lt_irrefl _ this

/-- The refined mesh has this property again. -/
theorem pointed_step (hR : Refined d dim V cells m V' cells' lookup) (hc : IsMesh d V.length cells) {radius : ℝ} (hW : Radial dim radius V cells m V' W)
    (h : Pointed dim V cells) : IsMesh d W.length cells' ∧ Pointed dim W cells' := by
  obtain ⟨parts, hparts, rfl⟩ := hR.kids
  have hkid : ∀ k ∈ parts.flatten, ∃ c ∈ cells, k.length = d + 1 ∧ k.Nodup ∧ ∀ v ∈ k, v ∈ c ∨ ∃ a ∈ c, ∃ b ∈ c, a ≠ b ∧ v = m a b := by
    intro k hk
    obtain ⟨kids, hkids, hk⟩ := List.mem_flatten.1 hk
    obtain ⟨i, hi, rfl⟩ := List.getElem_of_mem hkids
    have hi' : i < cells.length := by rw [hparts.length_eq]; exact hi
    have := List.forall₂_iff_get.1 hparts |>.2 i hi' hi
    exact ⟨cells[i], List.getElem_mem hi', this.nodes k hk⟩
  constructor
  · intro k hk
    obtain ⟨c, hcc, h1, h2, h3⟩ := hkid k hk
    refine ⟨h1, h2, fun v hv => ?_⟩
    rw [hW.length]
    rcases h3 v hv with h | ⟨a, ha, b, hb, hab, rfl⟩
    · have := (hc c hcc).2.2 v h
      have := old_le hR
      omega
    · exact (hR.range a b ⟨hab, c, hcc, ha, hb⟩).2
  · intro k hk
    obtain ⟨c, hcc, h1, h2, h3⟩ := hkid k hk
    obtain ⟨l, hl⟩ := (h c hcc).1
    have hold : ∀ v ∈ c, ∀ j, coords W v j = coords V v j := fun v hv j => by
      unfold coords; rw [hW.old v ((hc c hcc).2.2 v hv)]
    have hmid : ∀ a ∈ c, ∀ b ∈ c, a ≠ b → 0 < ∑ j ∈ Finset.range dim, l j * coords W (m a b) j := fun a ha b hb hab => by
      obtain ⟨t, ht, hx⟩ := hW.direction a b ⟨hab, c, hcc, ha, hb⟩
      have hpos := pointed_pos h hcc hl ha hb hab
      have : ∑ j ∈ Finset.range dim, l j * coords W (m a b) j = t * ∑ j ∈ Finset.range dim, l j * (coords V a j + coords V b j) := by
        rw [Finset.mul_sum]
        apply Finset.sum_congr rfl
        intro j hj
        rw [hx j (Finset.mem_range.1 hj)]
        ring
      rw [this]
      exact mul_pos ht hpos
    have hnz : ∀ v, 0 < ∑ j ∈ Finset.range dim, l j * coords W v j → ∃ j, j < dim ∧ coords W v j ≠ 0 := fun v hv => by
      by_contra hcon
      push Not at hcon
      rw [Finset.sum_eq_zero fun j hj => by rw [hcon j (Finset.mem_range.1 hj), mul_zero]] at hv
      exact lt_irrefl _ hv
    refine ⟨⟨l, fun v hv => ?_⟩, fun v hv w hw hvw hz => ?_⟩
    · rcases h3 v hv with h | ⟨a, ha, b, hb, hab, rfl⟩
      · simp only [hold v h]
        exact hl v h
      · exact Or.inr (hmid a ha b hb hab)
    · rcases h3 w hw with h' | ⟨a, ha, b, hb, hab, rfl⟩
      · rcases h3 v hv with h'' | ⟨a, ha, b, hb, hab, rfl⟩
        · simp only [hold w h']
          exact (h c hcc).2 v h'' w h' hvw fun j hj => by rw [← hold v h'']; exact hz j hj
        · obtain ⟨j, hj, hj0⟩ := hnz _ (hmid a ha b hb hab)
          exact absurd (hz j hj) hj0
      · exact hnz _ (hmid a ha b hb hab)

end

/-- Meshes after any number of refinements with the radial transformation. -/
inductive Reached (d dim : Nat) (radius : ℝ) (V₀ : List (List ℝ)) (cells₀ : List (List Nat)) : List (List ℝ) → List (List Nat) → Prop
  | start : Reached d dim radius V₀ cells₀ V₀ cells₀
  | step {V V' W : List (List ℝ)} {cells cells' : List (List Nat)} {m : Nat → Nat → Nat} {lookup : List ((Nat × Nat) × Nat)} :
      Reached d dim radius V₀ cells₀ V cells → Refined d dim V cells m V' cells' lookup → radial dim radius V' lookup = some W → Reached d dim radius V₀ cells₀ W cells'

theorem reached_pointed {d dim : Nat} {radius : ℝ} {V₀ V : List (List ℝ)} {cells₀ cells : List (List Nat)} (hc : IsMesh d V₀.length cells₀) (h : Pointed dim V₀ cells₀)
    (hV : Reached d dim radius V₀ cells₀ V cells) : IsMesh d V.length cells ∧ Pointed dim V cells := by
  induction hV with
  | start => exact ⟨hc, h⟩
  | step _ hR hW ih =>
    obtain ⟨W', h1, h2⟩ := radial_works hR ih.1 radius fun a b he => pointed_edge ih.2 he
    rw [hW] at h1
    injection h1 with h1
    subst h1
    exact pointed_step hR ih.1 h2 ih.2

/-- From a pointed mesh no refinement ever gives NaN. -/
theorem never_nan {d dim : Nat} {radius : ℝ} {V₀ V V' : List (List ℝ)} {cells₀ cells cells' : List (List Nat)} {m : Nat → Nat → Nat} {lookup : List ((Nat × Nat) × Nat)}
    (hc : IsMesh d V₀.length cells₀) (h : Pointed dim V₀ cells₀) (hV : Reached d dim radius V₀ cells₀ V cells) (hR : Refined d dim V cells m V' cells' lookup) :
    ∃ W, radial dim radius V' lookup = some W ∧ Radial dim radius V cells m V' W := by
  obtain ⟨h1, h2⟩ := reached_pointed hc h hV
  exact radial_works hR h1 radius fun a b he => pointed_edge h2 he

/-- From a pointed mesh of a ball, a shell, or a sphere all refined meshes are in the ball, the shell, or the sphere. -/
theorem stays {d dim : Nat} {V₀ V : List (List ℝ)} {cells₀ cells : List (List Nat)} (hc : IsMesh d V₀.length cells₀) (h : Pointed dim V₀ cells₀) {r R : ℝ}
    (hb : ∀ v, v < V₀.length → r ≤ dist0 dim V₀ v ∧ dist0 dim V₀ v ≤ R) (hV : Reached d dim 0 V₀ cells₀ V cells) :
    ∀ v, v < V.length → r ≤ dist0 dim V v ∧ dist0 dim V v ≤ R := by
  induction hV with
  | start => exact hb
  | step hV hR hW ih =>
    obtain ⟨h1, h2⟩ := reached_pointed hc h hV
    obtain ⟨W', hW', h3⟩ := radial_works hR h1 0 fun a b he => pointed_edge h2 he
    rw [hW] at hW'
    injection hW' with hW'
    subst hW'
    exact shell hR h1 h3 ih

/-! ### circles and discs -/

theorem dist0_circle {V : List (List ℝ)} {v : Nat} {R t : ℝ} (hR : 0 ≤ R) (h : V.getD v [] = [R * Real.cos t, R * Real.sin t]) : dist0 2 V v = R := by
  have h1 := dist0_sq 2 V v
  have : ∑ k ∈ Finset.range 2, coords V v k ^ 2 = R ^ 2 := by
    unfold coords
    rw [h]
    simp only [Finset.sum_range_succ, Finset.range_zero, Finset.sum_empty, List.getD_cons_zero, List.getD_cons_succ]
    have := Real.cos_sq_add_sin_sq t
    linear_combination R ^ 2 * this
  rw [this] at h1
  exact (sq_eq_sq₀ h1.1 hR).1 h1.2

/-- The functional of the direction between two points of a circle. -/
theorem arc {R s t : ℝ} (hR : 0 < R) (hst : |s - t| < Real.pi) {x y : Nat → ℝ} (hx : x 0 = R * Real.cos s ∧ x 1 = R * Real.sin s)
    (hy : y 0 = R * Real.cos t ∧ y 1 = R * Real.sin t) : ∃ l : Nat → ℝ, 0 < ∑ k ∈ Finset.range 2, l k * x k ∧ 0 < ∑ k ∈ Finset.range 2, l k * y k := by
  refine ⟨fun k => if k = 0 then Real.cos ((s + t) / 2) else Real.sin ((s + t) / 2), ?_⟩
  simp only [Finset.sum_range_succ, Finset.range_zero, Finset.sum_empty, zero_add, if_true, Nat.one_ne_zero, if_false]
  obtain ⟨h1, h2⟩ := abs_lt.1 hst
  have hcos : 0 < Real.cos ((s - t) / 2) := Real.cos_pos_of_mem_Ioo ⟨by linarith, by linarith⟩
  have e1 : Real.cos ((s + t) / 2) * x 0 + Real.sin ((s + t) / 2) * x 1 = R * Real.cos ((s - t) / 2) := by
    rw [hx.1, hx.2, show (s - t) / 2 = s - (s + t) / 2 by ring, Real.cos_sub]; ring
  have e2 : Real.cos ((s + t) / 2) * y 0 + Real.sin ((s + t) / 2) * y 1 = R * Real.cos ((s - t) / 2) := by
    rw [hy.1, hy.2, show (s - t) / 2 = (s + t) / 2 - t by ring, Real.cos_sub]; ring
  rw [e1, e2]
  exact ⟨mul_pos hR hcos, mul_pos hR hcos⟩

theorem pointed_arc {V : List (List ℝ)} {i j : Nat} {R s t : ℝ} (hR : 0 < R) (hst : |s - t| < Real.pi) (hi : V.getD i [] = [R * Real.cos s, R * Real.sin s])
    (hj : V.getD j [] = [R * Real.cos t, R * Real.sin t]) : ∃ l : Nat → ℝ, ∀ v ∈ [i, j], 0 < ∑ k ∈ Finset.range 2, l k * coords V v k := by
  obtain ⟨l, h1, h2⟩ := arc hR hst (x := coords V i) (y := coords V j) (by unfold coords; rw [hi]; simp) (by unfold coords; rw [hj]; simp)
  refine ⟨l, fun v hv => ?_⟩
  simp only [List.mem_cons, List.not_mem_nil, or_false] at hv
  rcases hv with rfl | rfl
  · exact h1
  · exact h2

theorem nonzero_circle {V : List (List ℝ)} {v : Nat} {R t : ℝ} (hR : 0 < R) (h : V.getD v [] = [R * Real.cos t, R * Real.sin t]) : ∃ k, k < 2 ∧ coords V v k ≠ 0 := by
  by_contra hcon
  push Not at hcon
  have := (dist0_zero 2 V v).2 hcon
  rw [dist0_circle hR.le h] at this
  exact absurd this hR.ne'

/-- Points of `sphere1` as multiples of the angle; the number of cells is the number 0 again. -/
theorem sphere1_vertex {n : Nat} (R : ℝ) {i : Nat} (hi : i ≤ n) (hn : 0 < n) :
    (sphere1 n R).1.getD (i % n) [] = [R * Real.cos (2 * Real.pi * i / n), R * Real.sin (2 * Real.pi * i / n)] := by
  unfold sphere1
  rw [List.getD_eq_getElem _ _ (by simpa using Nat.mod_lt _ hn)]
  simp only [List.getElem_map, List.getElem_range]
  rcases Nat.lt_or_ge i n with h | h
  · rw [Nat.mod_eq_of_lt h]
  · have : i = n := by omega
    subst this
    rw [Nat.mod_self]
    have hn0 : ((i : ℕ) : ℝ) ≠ 0 := by positivity
    rw [mul_div_assoc (2 * Real.pi) ((i : ℕ) : ℝ), div_self hn0]
    simp

/-- All refinements of `sphere1` are on the circle. -/
theorem circle {n : Nat} (hn : 3 ≤ n) {R : ℝ} (hR : 0 < R) : IsMesh 1 (sphere1 n R).1.length (sphere1 n R).2 ∧ Pointed 2 (sphere1 n R).1 (sphere1 n R).2 ∧
    ∀ {V cells}, Reached 1 2 0 (sphere1 n R).1 (sphere1 n R).2 V cells → ∀ v, v < V.length → dist0 2 V v = R := by
  have hlen : (sphere1 n R).1.length = n := by unfold sphere1; simp
  have hcell : ∀ c ∈ (sphere1 n R).2, ∃ i, i < n ∧ c = [i % n, (i + 1) % n] := by
    intro c hc
    obtain ⟨i, hi, rfl⟩ := List.mem_map.1 hc
    have hi := List.mem_range.1 hi
    exact ⟨i, hi, by rw [Nat.mod_eq_of_lt hi]⟩
  have hm : IsMesh 1 (sphere1 n R).1.length (sphere1 n R).2 := by
    intro c hc
    obtain ⟨i, hi, rfl⟩ := hcell c hc
    rw [hlen]
    refine ⟨rfl, ?_, ?_⟩
    · rw [List.nodup_cons]
      refine ⟨?_, by simp⟩
      rw [List.mem_singleton, Nat.mod_eq_of_lt hi]
      rcases Nat.lt_or_ge (i + 1) n with h | h
      · rw [Nat.mod_eq_of_lt h]; omega
      · rw [show i + 1 = n by omega, Nat.mod_self]; omega
    · intro v hv
      simp only [List.mem_cons, List.not_mem_nil, or_false] at hv
      rcases hv with rfl | rfl <;> exact Nat.mod_lt _ (by omega)
  have hp : Pointed 2 (sphere1 n R).1 (sphere1 n R).2 := by
    intro c hc
    obtain ⟨i, hi, rfl⟩ := hcell c hc
    have h1 := sphere1_vertex (n := n) R (i := i) (by omega) (by omega)
    have h2 := sphere1_vertex (n := n) R (i := i + 1) (by omega) (by omega)
    have hnpos : (0 : ℝ) < n := by exact_mod_cast (show 0 < n by omega)
    have hst : |2 * Real.pi * (i : ℝ) / n - 2 * Real.pi * ((i + 1 : ℕ) : ℝ) / n| < Real.pi := by
      have : 2 * Real.pi * (i : ℝ) / n - 2 * Real.pi * ((i + 1 : ℕ) : ℝ) / n = -(2 * Real.pi / n) := by push_cast; ring
      rw [this, abs_neg, abs_of_pos (by positivity), div_lt_iff₀ hnpos]
      have h3 : (3 : ℝ) ≤ n := by exact_mod_cast hn
      nlinarith [Real.pi_pos]
    obtain ⟨l, hl⟩ := pointed_arc hR hst h1 h2
    refine ⟨⟨l, fun v hv => Or.inr (hl v hv)⟩, fun v hv w hw _ _ => ?_⟩
    simp only [List.mem_cons, List.not_mem_nil, or_false] at hw
    rcases hw with rfl | rfl
    · exact nonzero_circle hR h1
    · exact nonzero_circle hR h2
  refine ⟨hm, hp, fun hV v hv => ?_⟩
  have := stays hm hp (r := R) (R := R) (fun v hv => by
    rw [hlen] at hv
    have h1 := sphere1_vertex (n := n) R (i := v) (by omega) (by omega)
    rw [Nat.mod_eq_of_lt hv] at h1
    rw [dist0_circle hR.le h1]
    exact ⟨le_refl _, le_refl _⟩) hV v hv
  linarith [this.1, this.2]

theorem disc_vertex (R : ℝ) {i : Nat} (hi : i < 6) : (uniformDisc R).1.getD (i + 1) [] = [R * Real.cos (i * 2 * Real.pi / 6), R * Real.sin (i * 2 * Real.pi / 6)] := by
  unfold uniformDisc
  rw [List.getD_cons_succ, List.getD_eq_getElem _ _ (by simpa using hi)]
  simp only [List.getElem_map, List.getElem_range]

/-- All refinements of `uniform_disc` are in the disc. -/
theorem disc {R : ℝ} (hR : 0 < R) : IsMesh 2 (uniformDisc R).1.length (uniformDisc R).2 ∧ Pointed 2 (uniformDisc R).1 (uniformDisc R).2 ∧
    ∀ {V cells}, Reached 2 2 0 (uniformDisc R).1 (uniformDisc R).2 V cells → ∀ v, v < V.length → dist0 2 V v ≤ R := by
  have hlen : (uniformDisc R).1.length = 7 := by unfold uniformDisc; simp
  have hm : IsMesh 2 (uniformDisc R).1.length (uniformDisc R).2 := by
    rw [hlen]; unfold IsMesh uniformDisc; dsimp only; decide
  have h0 : ∀ k, coords (uniformDisc R).1 0 k = 0 := fun k => by
    unfold coords uniformDisc
    rw [List.getD_cons_zero]
    rcases k with _ | _ | k <;> simp
  have hcell : ∀ c ∈ (uniformDisc R).2, ∃ i j, i < 6 ∧ j < 6 ∧ c = [0, i + 1, j + 1] ∧ (j = i + 1 ∨ (i = 5 ∧ j = 0)) := by
    intro c hc
    unfold uniformDisc at hc
    rcases List.mem_append.1 hc with hc | hc
    · obtain ⟨i, hi, rfl⟩ := List.mem_map.1 hc
      have := List.mem_range.1 hi
      exact ⟨i, i + 1, by omega, by omega, rfl, Or.inl rfl⟩
    · rw [List.mem_singleton.1 hc]
      exact ⟨5, 0, by omega, by omega, rfl, Or.inr ⟨rfl, rfl⟩⟩
  have hp : Pointed 2 (uniformDisc R).1 (uniformDisc R).2 := by
    intro c hc
    obtain ⟨i, j, hi, hj, rfl, hij⟩ := hcell c hc
    have h1 := disc_vertex R hi
    have h2 := disc_vertex R hj
    have hex : ∃ l : Nat → ℝ, ∀ v ∈ [i + 1, j + 1], 0 < ∑ k ∈ Finset.range 2, l k * coords (uniformDisc R).1 v k := by
      rcases hij with rfl | ⟨rfl, rfl⟩
      · refine pointed_arc hR ?_ h1 h2
        have : (i : ℝ) * 2 * Real.pi / 6 - ((i + 1 : ℕ) : ℝ) * 2 * Real.pi / 6 = -(Real.pi / 3) := by push_cast; ring
        rw [this, abs_neg, abs_of_pos (by positivity)]
        linarith [Real.pi_pos]
      · refine pointed_arc (s := ((5 : ℕ) : ℝ) * 2 * Real.pi / 6) (t := 2 * Real.pi) hR ?_ h1 (by rw [h2]; simp)
        have : ((5 : ℕ) : ℝ) * 2 * Real.pi / 6 - 2 * Real.pi = -(Real.pi / 3) := by push_cast; ring
        rw [this, abs_neg, abs_of_pos (by positivity)]
        linarith [Real.pi_pos]
    obtain ⟨l, hl⟩ := hex
    refine ⟨⟨l, fun v hv => ?_⟩, fun v hv w hw hvw hz => ?_⟩
    · rcases List.mem_cons.1 hv with rfl | hv
      · exact Or.inl fun k _ => h0 k
      · exact Or.inr (hl v hv)
    · have hnz : ∀ x ∈ [i + 1, j + 1], ∃ k, k < 2 ∧ coords (uniformDisc R).1 x k ≠ 0 := by
        intro x hx
        simp only [List.mem_cons, List.not_mem_nil, or_false] at hx
        rcases hx with rfl | rfl
        · exact nonzero_circle hR h1
        · exact nonzero_circle hR h2
      rcases List.mem_cons.1 hw with rfl | hw
      · rcases List.mem_cons.1 hv with rfl | hv
        · exact absurd rfl hvw
        · obtain ⟨k, hk, hk0⟩ := hnz v hv
          exact absurd (hz k hk) hk0
      · exact hnz w hw
  refine ⟨hm, hp, fun hV v hv => (stays hm hp (r := 0) (R := R) (fun v hv => ?_) hV v hv).2⟩
  refine ⟨(dist0_sq _ _ _).1, ?_⟩
  rw [hlen] at hv
  rcases v with _ | v
  · rw [(dist0_zero 2 _ 0).2 fun k _ => h0 k]; exact hR.le
  · rw [dist0_circle hR.le (disc_vertex R (show v < 6 by omega))]

/-- `sphere1` with two cells, and `ballNd` in one dimension, have an edge through the origin: refinement gives NaN. -/
theorem ball_fails (u : Nat → List (List ℝ)) (radius : ℝ) : ball1 u radius = none := by
  have e : ∀ u : Nat → List (List ℝ), ∀ V, (Refine.refine1D 1 u [[-radius], [radius]] [[0, 1]]) = some V →
      V.2.2 = [((0, 1), 2)] ∧ V.1 = (Refine.copyVertices 1 [[-radius], [radius]] (u 3)).set 2 [0] := by
    intro u V hV
    have hm : Refine.midpoint 1 [[-radius], [radius]] (0, 1) = [0] := by unfold Refine.midpoint; simp
    unfold Refine.refine1D at hV
    simp only [List.foldl_cons, List.foldl_nil, List.getD_cons_zero, List.getD_cons_succ, Refine.sortEdge, Refine.dset, List.any_nil, List.nil_append, List.length_cons, List.length_nil,
      Nat.zero_add, Nat.reduceAdd, Nat.zero_lt_one, if_true, Bool.false_eq_true, if_false, hm] at hV
    obtain ⟨c, _, rfl⟩ := Option.map_eq_some_iff.1 hV
    exact ⟨rfl, rfl⟩
  unfold ball1
  cases h : Refine.refine1D 1 u [[-radius], [radius]] [[0, 1]] with
  | none => rfl
  | some V =>
    show radial 1 0 V.1 V.2.2 = none
    obtain ⟨h1, h2⟩ := e u V h
    rw [h1]
    have hz : size 1 (V.1.getD 2 []) = 0 := by
      rw [size_zero]
      intro i hi
      obtain rfl : i = 0 := by omega
      rw [h2]
      generalize Refine.copyVertices 1 [[-radius], [radius]] (u 3) = X
      rw [show (X.set 2 [0]).getD 2 [] = (X.set 2 [0])[2]?.getD [] from List.getD_eq_getElem?_getD]
      by_cases hX : 2 < X.length
      · rw [List.getElem?_set_self hX]; rfl
      · rw [List.getElem?_eq_none (by rw [List.length_set]; omega)]; rfl
    unfold radial moveAll
    rw [List.foldlM_cons]
    unfold radialPlace
    rw [if_neg (by rintro ⟨x, _⟩; exact lt_irrefl _ x)]
    unfold rescale
    rw [if_pos hz]
    rfl

/-- Layers of a mesh of triangles: the vertices of each cell are on two neighbouring ones of the circles of radii `k R / N`. -/
def Layered (N : Nat) (R : ℝ) (V : List (List ℝ)) (cells : List (List Nat)) : Prop :=
  ∀ c ∈ cells, ∃ k : Nat, ∀ v ∈ c, dist0 2 V v = k * R / N ∨ dist0 2 V v = (k + 1) * R / N

/-- Layers are kept: refinement doubles their number. -/
theorem layers {u : Nat → List (List ℝ)} (hu : ∀ n, (u n).length = n) {V V' W : List (List ℝ)} (hV : ∀ r ∈ V, r.length = 2) {cells cells' : List (List Nat)}
    {lookup : List ((Nat × Nat) × Nat)} (hc : IsMesh 2 V.length cells) (hf : FewNeighbours cells) (hp : Pointed 2 V cells) (h : refine2D 2 u V cells = some (V', cells', lookup))
    (hW : radial 2 0 V' lookup = some W) {N : Nat} {R : ℝ} (hN : 0 < N) (hl : Layered N R V cells) : Layered (2 * N) R W cells' := by
  obtain ⟨m, V'', cells'', lookup', h', hR, hk⟩ := ordered_triangles 2 u hu V hV cells hc hf
  rw [h] at h'
  injection h' with h'
  injection h' with e1 h'
  injection h' with e2 e3
  subst e1 e2 e3
  obtain ⟨W', hW', hr⟩ := radial_works hR hc 0 fun a b he => pointed_edge hp he
  rw [hW] at hW'
  injection hW' with hW'
  subst hW'
  have hN' : (N : ℝ) ≠ 0 := by positivity
  have hcast : ((2 * N : ℕ) : ℝ) = 2 * N := by push_cast; ring
  intro c' hc'
  rw [hk] at hc'
  obtain ⟨c, hcc, hc'⟩ := List.mem_flatMap.1 hc'
  obtain ⟨k, hkv⟩ := hl c hcc
  have hlen := (hc c hcc).1
  obtain ⟨a, b, e, rfl⟩ : ∃ a b e, c = [a, b, e] := List.length_eq_three.1 hlen
  have hnd := (hc _ hcc).2.1
  simp only [List.nodup_cons, List.mem_cons, List.not_mem_nil, or_false, not_or] at hnd
  have hmid : ∀ x ∈ [a, b, e], ∀ y ∈ [a, b, e], x ≠ y → dist0 2 W (m x y) = (dist0 2 V x + dist0 2 V y) / 2 := fun x hx y hy hxy => by
    rw [hr.distance x y ⟨hxy, _, hcc, hx, hy⟩, if_neg (by rintro ⟨x, _⟩; exact lt_irrefl _ x)]
  have hold : ∀ x ∈ [a, b, e], dist0 2 W x = dist0 2 V x := fun x hx => by
    unfold dist0; rw [hr.old x ((hc _ hcc).2.2 x hx)]
  have ma : a ∈ [a, b, e] := by simp
  have mb : b ∈ [a, b, e] := by simp
  have me : e ∈ [a, b, e] := by simp
  have dab := hmid a ma b mb hnd.1.1
  have dbe := hmid b mb e me hnd.2.1
  have dae := hmid a ma e me hnd.1.2
  have oa := hold a ma
  have ob := hold b mb
  have oe := hold e me
  have va := hkv a ma
  have vb := hkv b mb
  have ve := hkv e me
  simp only [List.getD_cons_zero, List.getD_cons_succ, children2, List.mem_cons, List.not_mem_nil, or_false] at hc'
  have two : ∀ p q r : Nat, ∀ j : Nat, (∀ v ∈ [p, q, r], dist0 2 W v * (2 * N) = j * R ∨ dist0 2 W v * (2 * N) = (j + 1) * R) →
      ∃ k : Nat, ∀ v ∈ [p, q, r], dist0 2 W v = k * R / ((2 * N : ℕ) : ℝ) ∨ dist0 2 W v = (k + 1) * R / ((2 * N : ℕ) : ℝ) := by
    intro p q r j hj
    refine ⟨j, fun v hv => ?_⟩
    rw [hcast, eq_div_iff (by positivity), eq_div_iff (by positivity)]
    exact hj v hv
  have scaled : ∀ x : ℝ, (x = k * R / N ∨ x = (k + 1) * R / N) ↔ (x * N = k * R ∨ x * N = (k + 1) * R) := fun x => by
    rw [eq_div_iff hN', eq_div_iff hN']
  rw [scaled] at va vb ve
  rcases hc' with rfl | rfl | rfl | rfl
  · rcases va with va | va
    · refine two _ _ _ (2 * k) ?_
      intro v hv
      simp only [List.mem_cons, List.not_mem_nil, or_false] at hv
      push_cast
      rcases hv with rfl | rfl | rfl
      · left; rw [oa]; linarith
      · rw [dab]; rcases vb with vb | vb
        · left; linarith
        · right; linarith
      · rw [dae]; rcases ve with ve | ve
        · left; linarith
        · right; linarith
    · refine two _ _ _ (2 * k + 1) ?_
      intro v hv
      simp only [List.mem_cons, List.not_mem_nil, or_false] at hv
      push_cast
      rcases hv with rfl | rfl | rfl
      · right; rw [oa]; linarith
      · rw [dab]; rcases vb with vb | vb
        · left; linarith
        · right; linarith
      · rw [dae]; rcases ve with ve | ve
        · left; linarith
        · right; linarith
  · rcases vb with vb | vb
    · refine two _ _ _ (2 * k) ?_
      intro v hv
      simp only [List.mem_cons, List.not_mem_nil, or_false] at hv
      push_cast
      rcases hv with rfl | rfl | rfl
      · left; rw [ob]; linarith
      · rw [dbe]; rcases ve with ve | ve
        · left; linarith
        · right; linarith
      · rw [dab]; rcases va with va | va
        · left; linarith
        · right; linarith
    · refine two _ _ _ (2 * k + 1) ?_
      intro v hv
      simp only [List.mem_cons, List.not_mem_nil, or_false] at hv
      push_cast
      rcases hv with rfl | rfl | rfl
      · right; rw [ob]; linarith
      · rw [dbe]; rcases ve with ve | ve
        · left; linarith
        · right; linarith
      · rw [dab]; rcases va with va | va
        · left; linarith
        · right; linarith
  · rcases ve with ve | ve
    · refine two _ _ _ (2 * k) ?_
      intro v hv
      simp only [List.mem_cons, List.not_mem_nil, or_false] at hv
      push_cast
      rcases hv with rfl | rfl | rfl
      · left; rw [oe]; linarith
      · rw [dae]; rcases va with va | va
        · left; linarith
        · right; linarith
      · rw [dbe]; rcases vb with vb | vb
        · left; linarith
        · right; linarith
    · refine two _ _ _ (2 * k + 1) ?_
      intro v hv
      simp only [List.mem_cons, List.not_mem_nil, or_false] at hv
      push_cast
      rcases hv with rfl | rfl | rfl
      · right; rw [oe]; linarith
      · rw [dae]; rcases va with va | va
        · left; linarith
        · right; linarith
      · rw [dbe]; rcases vb with vb | vb
        · left; linarith
        · right; linarith
  · have mid : (∀ v ∈ [m a b, m b e, m a e], dist0 2 W v * (2 * N) = (2 * k : ℕ) * R ∨ dist0 2 W v * (2 * N) = ((2 * k : ℕ) + 1) * R) ∨
        ∀ v ∈ [m a b, m b e, m a e], dist0 2 W v * (2 * N) = (2 * k + 1 : ℕ) * R ∨ dist0 2 W v * (2 * N) = ((2 * k + 1 : ℕ) + 1) * R := by
      simp only [List.forall_mem_cons, List.not_mem_nil, false_implies, implies_true, and_true]
      push_cast
      rw [dab, dbe, dae]
      rcases va with va | va <;> rcases vb with vb | vb <;> rcases ve with ve | ve
      · left; exact ⟨Or.inl (by linarith), Or.inl (by linarith), Or.inl (by linarith)⟩
      · left; exact ⟨Or.inl (by linarith), Or.inr (by linarith), Or.inr (by linarith)⟩
      · left; exact ⟨Or.inr (by linarith), Or.inr (by linarith), Or.inl (by linarith)⟩
      · right; exact ⟨Or.inl (by linarith), Or.inr (by linarith), Or.inl (by linarith)⟩
      · left; exact ⟨Or.inr (by linarith), Or.inl (by linarith), Or.inr (by linarith)⟩
      · right; exact ⟨Or.inl (by linarith), Or.inl (by linarith), Or.inr (by linarith)⟩
      · right; exact ⟨Or.inr (by linarith), Or.inl (by linarith), Or.inl (by linarith)⟩
      · right; exact ⟨Or.inr (by linarith), Or.inr (by linarith), Or.inr (by linarith)⟩
    rcases mid with mid | mid
    · exact two _ _ _ _ mid
    · exact two _ _ _ _ mid

/-- `uniform_disc` has one layer. -/
theorem disc_layered {R : ℝ} (hR : 0 < R) : Layered 1 R (uniformDisc R).1 (uniformDisc R).2 := by
  have h0 : dist0 2 (uniformDisc R).1 0 = 0 := (dist0_zero _ _ _).2 fun k _ => by
    unfold coords uniformDisc
    rw [List.getD_cons_zero]
    rcases k with _ | _ | k <;> simp
  intro c hc
  refine ⟨0, fun v hv => ?_⟩
  have : v < 7 := by have := ((disc hR).1 c hc).2.2 v hv; unfold uniformDisc at this; simpa using this
  rcases v with _ | v
  · left; rw [h0]; simp
  · right; rw [dist0_circle hR.le (disc_vertex R (show v < 6 by omega))]; simp

/-! ### gradings -/

theorem param_radiusOf {R mu x : ℝ} (hR : 0 < R) (hmu : 0 < mu) (hx : x ≤ 1) : param R mu (radiusOf R mu x) = x := by
  unfold param radiusOf
  rw [mul_div_cancel_left₀ _ hR.ne', sub_sub_cancel, ← Real.rpow_mul (by linarith), mul_one_div_cancel hmu.ne', Real.rpow_one]
  ring

theorem radiusOf_param {R mu r : ℝ} (hR : 0 < R) (hmu : 0 < mu) (hr : r ≤ R) : radiusOf R mu (param R mu r) = r := by
  unfold param radiusOf
  have h1 : 0 ≤ 1 - r / R := by rw [sub_nonneg, div_le_one hR]; exact hr
  rw [sub_sub_cancel, ← Real.rpow_mul h1, one_div_mul_cancel hmu.ne', Real.rpow_one]
  field_simp
  ring

theorem param_range {R mu r : ℝ} (hR : 0 < R) (hmu : 0 < mu) (h0 : 0 ≤ r) (hr : r ≤ R) : 0 ≤ param R mu r ∧ param R mu r ≤ 1 ∧ (0 < r → 0 < param R mu r) := by
  have h1 : 0 ≤ 1 - r / R := by rw [sub_nonneg, div_le_one hR]; exact hr
  have h2 : 1 - r / R ≤ 1 := by have : 0 ≤ r / R := by positivity
                                linarith
  have h3 : 0 < 1 / mu := by positivity
  unfold param
  refine ⟨by have := Real.rpow_le_one h1 h2 h3.le; linarith, by have := Real.rpow_nonneg h1 (1 / mu); linarith, fun hp => ?_⟩
  have : (1 - r / R) ^ (1 / mu) < 1 := Real.rpow_lt_one h1 (by have : 0 < r / R := by positivity
                                                               linarith) h3
  linarith

theorem radiusOf_range {R mu x : ℝ} (hR : 0 < R) (hmu : 0 < mu) (h0 : 0 ≤ x) (hx : x ≤ 1) : 0 ≤ radiusOf R mu x ∧ radiusOf R mu x ≤ R ∧ (0 < x → 0 < radiusOf R mu x) := by
  have h1 : 0 ≤ 1 - x := by linarith
  unfold radiusOf
  refine ⟨mul_nonneg hR.le (by have := Real.rpow_le_one h1 (by linarith) hmu.le; linarith), ?_, fun hp => mul_pos hR ?_⟩
  · have := Real.rpow_nonneg h1 mu
    nlinarith
  · have : (1 - x) ^ mu < 1 := Real.rpow_lt_one h1 (by linarith) hmu
    linarith

section
variable {d dim : Nat} {V V' W : List (List ℝ)} {cells cells' : List (List Nat)} {m : Nat → Nat → Nat} {lookup : List ((Nat × Nat) × Nat)}

/-- The graded transformation: the parameter of a new vertex is the mean of those of the ends of the edge. -/
theorem graded_works (hR : Refined d dim V cells m V' cells' lookup) (hc : IsMesh d V.length cells) {mu mu2 R : ℝ} (hmu : 0 < mu) (hmu2 : 0 < mu2) (hR0 : 0 < R)
    (h0 : ∀ a b, IsEdge cells a b → ∃ k, k < dim ∧ coords V a k + coords V b k ≠ 0) (hs : ∀ v, v < V.length → dist0 dim V v ≤ R) :
    ∃ W, graded dim mu mu2 R V' lookup = some W ∧ W.length = V'.length ∧ (∀ v, v < V.length → W.getD v [] = V.getD v []) ∧
      ∀ a b, IsEdge cells a b → (∃ t, 0 < t ∧ ∀ k, k < dim → coords W (m a b) k = t * (coords V a k + coords V b k)) ∧ dist0 dim W (m a b) ≤ R ∧
        ∃ e, e = (if coords V a 0 + coords V b 0 < 0 then mu else mu2) ∧ param R e (dist0 dim W (m a b)) = (param R e (dist0 dim V a) + param R e (dist0 dim V b)) / 2 := by
  have hne : ∀ a b, IsEdge cells a b → size dim (V'.getD (m a b) []) ≠ 0 := fun a b he hz => by
    obtain ⟨k, hk, hk0⟩ := h0 a b he
    exact hk0 ((dist0_mid hR he).1 hz k hk)
  have hin : ∀ a b, IsEdge cells a b → ¬ (R < size dim (V.getD a []) ∨ R < size dim (V.getD b [])) := fun a b he => by
    obtain ⟨h1, h2⟩ := edge_lt hc he
    rintro (h | h)
    · exact absurd (hs a h1) (not_le.2 h)
    · exact absurd (hs b h2) (not_le.2 h)
  obtain ⟨W, hW, hM⟩ := moved_some hR hc (gradedPlace dim mu mu2 R) (fun a b r => by
    unfold gradedPlace
    simp only [or_comm (a := R < size dim a), add_comm (1 / 2 * param R _ (size dim a))]) (fun a b he => by
    unfold gradedPlace
    rw [if_neg (hin a b he)]
    unfold rescale
    dsimp only
    rw [if_neg (hne a b he)]
    rfl)
  refine ⟨W, hW, hM.length, hM.old, fun a b he => ?_⟩
  have hn := hM.new a b he
  unfold gradedPlace at hn
  rw [if_neg (hin a b he)] at hn
  dsimp only at hn
  have hsign : (V'.getD (m a b) []).getD 0 0 < 0 ↔ coords V a 0 + coords V b 0 < 0 := by
    rw [show (V'.getD (m a b) []).getD 0 0 = coords V' (m a b) 0 from rfl, hR.mid a b he]
    constructor <;> intro h <;> linarith
  simp only [hsign] at hn
  have hepos : 0 < (if coords V a 0 + coords V b 0 < 0 then mu else mu2) := by split <;> assumption
  generalize (if coords V a 0 + coords V b 0 < 0 then mu else mu2) = e at *
  obtain ⟨h1, h2⟩ := edge_lt hc he
  have pa := param_range hR0 hepos (dist0_sq dim V a).1 (hs a h1)
  have pb := param_range hR0 hepos (dist0_sq dim V b).1 (hs b h2)
  have hx0 : 0 < 1 / 2 * param R e (dist0 dim V a) + 1 / 2 * param R e (dist0 dim V b) := by
    obtain ⟨k, hk, hk0⟩ := h0 a b he
    have q1 := (dist0_sq dim V a).1
    have q2 := (dist0_sq dim V b).1
    rcases q1.lt_or_eq with hlt | heq
    · have := pa.2.2 hlt; linarith [pb.1]
    · rcases q2.lt_or_eq with hlt | heq2
      · have := pb.2.2 hlt; linarith [pa.1]
      · exact absurd (by rw [(dist0_zero dim V a).1 heq.symm k hk, (dist0_zero dim V b).1 heq2.symm k hk, add_zero]) hk0
  have hx1 : 1 / 2 * param R e (dist0 dim V a) + 1 / 2 * param R e (dist0 dim V b) ≤ 1 := by linarith [pa.2.1, pb.2.1]
  have hr := radiusOf_range hR0 hepos hx0.le hx1
  obtain ⟨_, _, q3, q4⟩ := rescale_some hr.1 hn
  refine ⟨⟨radiusOf R e (1 / 2 * param R e (dist0 dim V a) + 1 / 2 * param R e (dist0 dim V b)) / dist0 dim V' (m a b) / 2, ?_, fun k hk => ?_⟩, ?_, e, rfl, ?_⟩
  · have := hr.2.2 hx0
    have := lt_of_le_of_ne (size_nonneg dim (V'.getD (m a b) [])) (Ne.symm (hne a b he))
    unfold dist0 at *
    positivity
  · rw [show coords W (m a b) k = (W.getD (m a b) []).getD k 0 from rfl, q4 k hk, show (V'.getD (m a b) []).getD k 0 = coords V' (m a b) k from rfl, hR.mid a b he k]
    unfold dist0
    ring
  · show size dim (W.getD (m a b) []) ≤ R
    rw [q3]; exact hr.2.1
  · rw [show dist0 dim W (m a b) = size dim (W.getD (m a b) []) from rfl, q3]
    have := param_radiusOf hR0 hepos hx1
    unfold dist0 at this ⊢
    rw [this]; ring

/-- The grading is kept: if all distances are radii of multiples of `1/N`, then those after refinement are radii of multiples of `1/(2N)`. -/
theorem graded_levels (hR : Refined d dim V cells m V' cells' lookup) (hc : IsMesh d V.length cells) {mu R : ℝ} (hmu : 0 < mu) (hR0 : 0 < R)
    (h0 : ∀ a b, IsEdge cells a b → ∃ k, k < dim ∧ coords V a k + coords V b k ≠ 0) {N : Nat} (hN : 0 < N)
    (hl : ∀ v, v < V.length → ∃ k : Nat, k ≤ N ∧ dist0 dim V v = radiusOf R mu (k / N)) :
    ∃ W, graded dim mu mu R V' lookup = some W ∧ ∀ v, v < W.length → ∃ k : Nat, k ≤ 2 * N ∧ dist0 dim W v = radiusOf R mu (k / (2 * N)) := by
  have hNp : (0 : ℝ) < N := by exact_mod_cast hN
  have hfrac : ∀ k : Nat, k ≤ N → (0 : ℝ) ≤ k / N ∧ (k : ℝ) / N ≤ 1 := fun k hk => ⟨by positivity, by rw [div_le_one hNp]; exact_mod_cast hk⟩
  have hs : ∀ v, v < V.length → dist0 dim V v ≤ R := fun v hv => by
    obtain ⟨k, hk, e⟩ := hl v hv
    rw [e]
    exact (radiusOf_range hR0 hmu (hfrac k hk).1 (hfrac k hk).2).2.1
  obtain ⟨W, hW, h1, h2, h3⟩ := graded_works hR hc hmu hmu hR0 h0 hs
  refine ⟨W, hW, fun v hv => ?_⟩
  rcases Nat.lt_or_ge v V.length with h | h
  · obtain ⟨k, hk, e⟩ := hl v h
    refine ⟨2 * k, by omega, ?_⟩
    unfold dist0
    rw [h2 v h]
    unfold dist0 at e
    rw [e]
    congr 1
    push_cast
    field_simp
  · obtain ⟨a, b, he, rfl⟩ := hR.onto v h (by rw [← h1]; exact hv)
    obtain ⟨_, hle, e, hee, hp⟩ := h3 a b he
    rw [ite_self] at hee
    subst hee
    obtain ⟨q1, q2⟩ := edge_lt hc he
    obtain ⟨k1, hk1, e1⟩ := hl a q1
    obtain ⟨k2, hk2, e2⟩ := hl b q2
    refine ⟨k1 + k2, by omega, ?_⟩
    rw [← radiusOf_param hR0 hmu hle, hp, e1, e2, param_radiusOf hR0 hmu (hfrac k1 hk1).2, param_radiusOf hR0 hmu (hfrac k2 hk2).2]
    congr 1
    push_cast
    field_simp

theorem foldl_min_le (i : Nat) : ∀ (l : List (List ℝ)) (x : ℝ), l.foldl (fun x r => min x (r.getD i 0)) x ≤ x ∧ ∀ r ∈ l, l.foldl (fun x r => min x (r.getD i 0)) x ≤ r.getD i 0 := by
  intro l
  induction l with
  | nil => intro x; simp
  | cons r l ih =>
    intro x
    obtain ⟨h1, h2⟩ := ih (min x (r.getD i 0))
    rw [List.foldl_cons]
    refine ⟨h1.trans (min_le_left _ _), fun r' hr => ?_⟩
    rcases List.mem_cons.1 hr with rfl | hr
    · exact h1.trans (min_le_right _ _)
    · exact h2 r' hr

theorem le_foldl_min (i : Nat) {c : ℝ} : ∀ (l : List (List ℝ)) (x : ℝ), c ≤ x → (∀ r ∈ l, c ≤ r.getD i 0) → c ≤ l.foldl (fun x r => min x (r.getD i 0)) x := by
  intro l
  induction l with
  | nil => intro x hx _; exact hx
  | cons r l ih => intro x hx h; exact ih _ (le_min hx (h r (by simp))) fun r' hr => h r' (by simp [hr])

theorem le_foldl_max (i : Nat) : ∀ (l : List (List ℝ)) (x : ℝ), x ≤ l.foldl (fun x r => max x (r.getD i 0)) x ∧ ∀ r ∈ l, r.getD i 0 ≤ l.foldl (fun x r => max x (r.getD i 0)) x := by
  intro l
  induction l with
  | nil => intro x; simp
  | cons r l ih =>
    intro x
    obtain ⟨h1, h2⟩ := ih (max x (r.getD i 0))
    rw [List.foldl_cons]
    refine ⟨(le_max_left _ _).trans h1, fun r' hr => ?_⟩
    rcases List.mem_cons.1 hr with rfl | hr
    · exact (le_max_right _ _).trans h1
    · exact h2 r' hr

theorem foldl_max_le (i : Nat) {c : ℝ} : ∀ (l : List (List ℝ)) (x : ℝ), x ≤ c → (∀ r ∈ l, r.getD i 0 ≤ c) → l.foldl (fun x r => max x (r.getD i 0)) x ≤ c := by
  intro l
  induction l with
  | nil => intro x hx _; exact hx
  | cons r l ih => intro x hx h; exact ih _ (max_le hx (h r (by simp))) fun r' hr => h r' (by simp [hr])

theorem low_eq {V : List (List ℝ)} {i : Nat} {c : ℝ} (h : ∀ r ∈ V, c ≤ r.getD i 0) (hex : ∃ r ∈ V, r.getD i 0 = c) : low V i = c := by
  obtain ⟨r, hr, e⟩ := hex
  cases V with
  | nil => simp at hr
  | cons r0 V =>
    unfold low
    dsimp only
    have h1 := foldl_min_le i V (r0.getD i 0)
    refine le_antisymm ?_ (le_foldl_min i V _ (h r0 (by simp)) fun r hr => h r (by simp [hr]))
    rcases List.mem_cons.1 hr with rfl | hr
    · rw [← e]; exact h1.1
    · rw [← e]; exact h1.2 r hr

theorem high_eq {V : List (List ℝ)} {i : Nat} {c : ℝ} (h : ∀ r ∈ V, r.getD i 0 ≤ c) (hex : ∃ r ∈ V, r.getD i 0 = c) : high V i = c := by
  obtain ⟨r, hr, e⟩ := hex
  cases V with
  | nil => simp at hr
  | cons r0 V =>
    unfold high
    dsimp only
    have h1 := le_foldl_max i V (r0.getD i 0)
    refine le_antisymm (foldl_max_le i V _ (h r0 (by simp)) fun r hr => h r (by simp [hr])) ?_
    rcases List.mem_cons.1 hr with rfl | hr
    · rw [← e]; exact h1.1
    · rw [← e]; exact h1.2 r hr

/-- The transformation of cubes, for meshes of the unit cube: the parameters of the coordinates of a new vertex are the means of those of the ends. -/
theorem hypercube_partial (hR : Refined d dim V cells m V' cells' lookup) (hc : IsMesh d V.length cells) {factor : Nat → ℝ} (hf : ∀ k, k < dim → 0 < factor k)
    (hin : ∀ v, v < V.length → ∀ k, k < dim → 0 ≤ coords V v k ∧ coords V v k ≤ 1) (h0 : ∀ k, k < dim → ∃ v, v < V.length ∧ coords V v k = 0)
    (h1 : ∀ k, k < dim → ∃ v, v < V.length ∧ coords V v k = 1) :
    ∃ W, hypercube dim factor V' lookup = some W ∧ W.length = V'.length ∧ (∀ v, v < V.length → W.getD v [] = V.getD v []) ∧
      ∀ a b, IsEdge cells a b → ∀ k, k < dim → coords W (m a b) k ^ (1 / factor k) = (coords V a k ^ (1 / factor k) + coords V b k ^ (1 / factor k)) / 2 ∧
        min (coords V a k) (coords V b k) ≤ coords W (m a b) k ∧ coords W (m a b) k ≤ max (coords V a k) (coords V b k) := by
  have hin' : ∀ r ∈ V', ∀ k, k < dim → 0 ≤ r.getD k 0 ∧ r.getD k 0 ≤ 1 := by
    intro r hr k hk
    obtain ⟨i, hi, rfl⟩ := List.getElem_of_mem hr
    rw [← List.getD_eq_getElem V' [] hi]
    rcases Nat.lt_or_ge i V.length with h | h
    · rw [old_row hR h]; exact hin i h k hk
    · obtain ⟨a, b, he, rfl⟩ := hR.onto i h hi
      obtain ⟨q1, q2⟩ := edge_lt hc he
      have := hR.mid a b he k
      rw [show (V'.getD (m a b) []).getD k 0 = coords V' (m a b) k from rfl, this]
      have := hin a q1 k hk
      have := hin b q2 k hk
      constructor <;> linarith
  have hmem : ∀ v, v < V.length → V.getD v [] ∈ V' := fun v hv => by
    rw [← old_row hR hv, List.getD_eq_getElem V' [] (by have := old_le hR; omega)]
    exact List.getElem_mem _
  have hlow : ∀ k, k < dim → low V' k = 0 := fun k hk => by
    obtain ⟨v, hv, e⟩ := h0 k hk
    exact low_eq (fun r hr => (hin' r hr k hk).1) ⟨_, hmem v hv, e⟩
  have hhigh : ∀ k, k < dim → high V' k = 1 := fun k hk => by
    obtain ⟨v, hv, e⟩ := h1 k hk
    exact high_eq (fun r hr => (hin' r hr k hk).2) ⟨_, hmem v hv, e⟩
  have hany : ¬ ((List.range dim).any fun i => decide (high V' i = low V' i)) = true := by
    rw [List.any_eq_true]
    rintro ⟨k, hk, e⟩
    have hk := List.mem_range.1 hk
    rw [decide_eq_true_eq, hlow k hk, hhigh k hk] at e
    exact one_ne_zero e
  unfold hypercube
  simp only [if_neg hany]
  obtain ⟨W, hW, hM⟩ := moved_some hR hc (fun a b _ => some ((List.range dim).map fun i =>
      low V' i + factorInv V' i * (1 / 2 * (factorOf V' i * (a.getD i 0 - low V' i)) ^ (1 / factor i) + 1 / 2 * (factorOf V' i * (b.getD i 0 - low V' i)) ^ (1 / factor i)) ^ factor i))
    (fun a b r => by
      refine congrArg some (List.map_congr_left fun i _ => ?_)
      rw [add_comm (1 / 2 * (factorOf V' i * (a.getD i 0 - low V' i)) ^ (1 / factor i))]) (fun a b he => rfl)
  refine ⟨W, hW, hM.length, hM.old, fun a b he k hk => ?_⟩
  have hn := hM.new a b he
  injection hn with hn
  have hval : coords W (m a b) k = (1 / 2 * coords V a k ^ (1 / factor k) + 1 / 2 * coords V b k ^ (1 / factor k)) ^ factor k := by
    unfold coords
    rw [← hn, getD_scaled dim _ hk]
    unfold factorInv factorOf
    rw [hlow k hk, hhigh k hk]
    simp
  obtain ⟨q1, q2⟩ := edge_lt hc he
  have ha := hin a q1 k hk
  have hb := hin b q2 k hk
  have hfk := hf k hk
  have hfi : 0 < 1 / factor k := by positivity
  have pa := Real.rpow_nonneg ha.1 (1 / factor k)
  have pb := Real.rpow_nonneg hb.1 (1 / factor k)
  have back : ∀ x : ℝ, 0 ≤ x → (x ^ (1 / factor k)) ^ factor k = x := fun x hx => by
    rw [← Real.rpow_mul hx, one_div_mul_cancel hfk.ne', Real.rpow_one]
  refine ⟨?_, ?_, ?_⟩
  · rw [hval, ← Real.rpow_mul (by positivity), mul_one_div_cancel hfk.ne', Real.rpow_one]
    ring
  · rw [hval, ← back _ (le_min ha.1 hb.1)]
    have g1 := Real.rpow_le_rpow (le_min ha.1 hb.1) (min_le_left (coords V a k) (coords V b k)) hfi.le
    have g2 := Real.rpow_le_rpow (le_min ha.1 hb.1) (min_le_right (coords V a k) (coords V b k)) hfi.le
    exact Real.rpow_le_rpow (Real.rpow_nonneg (le_min ha.1 hb.1) _) (by linarith) hfk.le
  · rw [hval]
    conv_rhs => rw [← back _ (ha.1.trans (le_max_left (coords V a k) (coords V b k)))]
    have g1 := Real.rpow_le_rpow ha.1 (le_max_left (coords V a k) (coords V b k)) hfi.le
    have g2 := Real.rpow_le_rpow hb.1 (le_max_right (coords V a k) (coords V b k)) hfi.le
    exact Real.rpow_le_rpow (by positivity) (by linarith) hfk.le

end

/-- Other cubes: a factor of one, which is no grading, moves the midpoint of [0,2] to 1/4, and for [1,2] and every factor the new vertex is at the old vertex 1. -/
theorem hypercube_fails : hypercube 1 (fun _ => 1) [[0], [2], [1]] [((0, 1), 2)] = some [[0], [2], [1 / 4]] ∧
    ∀ f, hypercube 1 (fun _ => f) [[1], [2], [3 / 2]] [((0, 1), 2)] = some [[1], [2], [1]] := by
  constructor
  · have h1 : low [[0], [2], [1]] 0 = 0 := low_eq (by intro r hr; fin_cases hr <;> simp) ⟨[0], by simp, by simp⟩
    have h2 : high [[0], [2], [1]] 0 = 2 := high_eq (by intro r hr; fin_cases hr <;> simp) ⟨[2], by simp, by simp⟩
    unfold hypercube moveAll factorInv factorOf
    simp only [List.range_succ, List.range_zero, List.nil_append, List.any_cons, List.any_nil, List.map_cons, List.map_nil, h1, h2]
    simp
    norm_num
  · intro f
    have h1 : low [[1], [2], [3 / 2]] 0 = 1 := low_eq (by intro r hr; fin_cases hr <;> norm_num) ⟨[1], by simp, by simp⟩
    have h2 : high [[1], [2], [3 / 2]] 0 = 2 := high_eq (by intro r hr; fin_cases hr <;> norm_num) ⟨[2], by simp, by simp⟩
    unfold hypercube moveAll factorInv factorOf
    simp only [List.range_succ, List.range_zero, List.nil_append, List.any_cons, List.any_nil, List.map_cons, List.map_nil, h1, h2]
    norm_num

/-- `gradeMesh` keeps directions and grades distances. -/
theorem grade_mesh (dim : Nat) {grading : ℝ → ℝ} (hg : ∀ r, 0 < r → 0 ≤ grading r) (V : List (List ℝ)) : (gradeMesh dim grading V).length = V.length ∧
    ∀ v, v < V.length → (dist0 dim V v = 0 → (gradeMesh dim grading V).getD v [] = V.getD v []) ∧
      (dist0 dim V v ≠ 0 → dist0 dim (gradeMesh dim grading V) v = grading (dist0 dim V v) ∧
        ∀ k, k < dim → coords (gradeMesh dim grading V) v k = grading (dist0 dim V v) / dist0 dim V v * coords V v k) := by
  refine ⟨by unfold gradeMesh; simp, fun v hv => ?_⟩
  have hrow : (gradeMesh dim grading V).getD v [] = if 0 < dist0 dim V v then (List.range dim).map fun i => (V.getD v []).getD i 0 * (grading (dist0 dim V v) / dist0 dim V v) else V.getD v [] := by
    unfold gradeMesh dist0
    rw [List.getD_eq_getElem _ _ (by simpa using hv), List.getElem_map, List.getD_eq_getElem V [] hv]
  constructor
  · intro h0; rw [hrow, if_neg (by rw [h0]; exact lt_irrefl _)]
  · intro h0
    have hp := lt_of_le_of_ne (dist0_sq dim V v).1 (Ne.symm h0)
    rw [if_pos hp] at hrow
    have hk : ∀ k, k < dim → ((gradeMesh dim grading V).getD v []).getD k 0 = grading (dist0 dim V v) / dist0 dim V v * (V.getD v []).getD k 0 := fun k hk => by
      rw [hrow, getD_scaled dim _ hk, mul_comm]
    refine ⟨?_, hk⟩
    have := size_mul dim (div_nonneg (hg _ hp) hp.le) hk
    rw [show dist0 dim (gradeMesh dim grading V) v = size dim ((gradeMesh dim grading V).getD v []) from rfl, this]
    exact div_mul_cancel₀ _ h0

/-- The grading of `gradeUniformBall` keeps the origin and the inner sphere, moves the outer sphere to the new radius, and is increasing. -/
theorem ball_grading {muI muE rI rE rE0 : ℝ} (hI : 0 < muI) (hE : 0 < muE) (h0 : 0 < rI) (h1 : rI < rE0) (h2 : rI < rE) :
    ballGrading muI muE rI rE rE0 0 = 0 ∧ ballGrading muI muE rI rE rE0 rI = rI ∧ ballGrading muI muE rI rE rE0 rE0 = rE ∧
      ∀ r s, 0 ≤ r → r < s → s ≤ rE0 → ballGrading muI muE rI rE rE0 r < ballGrading muI muE rI rE rE0 s := by
  unfold ballGrading
  refine ⟨?_, ?_, ?_, ?_⟩
  · rw [if_pos h0.le]; simp
  · rw [if_pos (le_refl _), div_self h0.ne', sub_self, Real.zero_rpow hI.ne']; ring
  · rw [if_neg (by linarith), div_self (by linarith), Real.one_rpow]; ring
  · intro r s hr hrs hs
    have inner : ∀ r, 0 ≤ r → r ≤ rI → rI * (1 - (1 - r / rI) ^ muI) ≤ rI := fun r hr hrI => by
      have : 0 ≤ (1 - r / rI) ^ muI := Real.rpow_nonneg (by rw [sub_nonneg, div_le_one h0]; exact hrI) _
      nlinarith
    by_cases hsI : s ≤ rI
    · rw [if_pos hsI, if_pos (by linarith)]
      refine mul_lt_mul_of_pos_left ?_ h0
      have hlt : (1 - s / rI) ^ muI < (1 - r / rI) ^ muI := Real.rpow_lt_rpow (by rw [sub_nonneg, div_le_one h0]; exact hsI) (by
        have := div_lt_div_of_pos_right hrs h0
        linarith) hI
      linarith
    · rw [if_neg hsI]
      have hs' : 0 < (s - rI) / (rE0 - rI) := div_pos (by linarith) (by linarith)
      by_cases hrI : r ≤ rI
      · rw [if_pos hrI]
        have := Real.rpow_pos_of_pos hs' muE
        have := mul_pos (show 0 < rE - rI by linarith) this
        linarith [inner r hr hrI]
      · rw [if_neg hrI]
        have hlt : ((r - rI) / (rE0 - rI)) ^ muE < ((s - rI) / (rE0 - rI)) ^ muE :=
          Real.rpow_lt_rpow (div_nonneg (by linarith) (by linarith)) (div_lt_div_of_pos_right (by linarith) (by linarith)) hE
        have := mul_lt_mul_of_pos_left hlt (show 0 < rE - rI by linarith)
        linarith

/-- A case that meets the hypotheses: a circle of three cells is refined and transformed. -/
theorem sample_case (u : Nat → List (List ℝ)) (hu : ∀ n, (u n).length = n) : ∃ (m : Nat → Nat → Nat) (V' : List (List ℝ)) (cells' : List (List Nat)) (lookup : List ((Nat × Nat) × Nat)) (W : List (List ℝ)), refine1D 2 u (sphere1 3 1).1 (sphere1 3 1).2 = some (V', cells', lookup) ∧
    radial 2 0 V' lookup = some W ∧ 3 ≤ m 0 1 ∧ m 0 1 < W.length ∧ dist0 2 W (m 0 1) = 1 := by
  obtain ⟨hm, hp, _⟩ := circle (n := 3) (le_refl _) (R := 1) one_pos
  obtain ⟨m, V', cells', lookup, h1, hR⟩ := refine_intervals 2 u hu (sphere1 3 1).1 (by unfold sphere1; simp) (sphere1 3 1).2 hm (by unfold sphere1; decide)
  obtain ⟨W, h2, h3⟩ := never_nan hm hp Reached.start hR
  have he : IsEdge (sphere1 3 1).2 0 1 := by unfold IsEdge sphere1; decide
  have hr := hR.range 0 1 he
  refine ⟨m, V', cells', lookup, W, h1, h2, by have := hr.1; unfold sphere1 at this; simpa using this, by rw [h3.length]; exact hr.2, ?_⟩
  exact (circle (n := 3) (le_refl _) (R := 1) one_pos).2.2 (Reached.step Reached.start hR h2) _ (by rw [h3.length]; exact hr.2)

end PyNucleus.Props.C89
