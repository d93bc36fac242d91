import Verif.Model.DoFMap
import Verif.Spec.DoFMap
import Verif.Proof.OptionMap
import Mathlib.Data.List.GetD
import Mathlib.Tactic.Ring
import Mathlib.Tactic.Linarith

/-!
# C39: complement, combination and product of maps

Full statement: `getComplementDoFMap` is an involution that exchanges interior and boundary dofs and keeps the element; combining a map
with its complement numbers all dofs; the numbering of `Product_DoFMap` is a bijection between pairs (scalar dof, component) and dofs that
keeps the sign.

Violated: complement and combination lose the polynomial order and the dimension (`complement_order_fails`), which are used to select
quadrature rules.
-/

namespace PyNucleus.Props.C39

open PyNucleus.DoFMap

/-- The complement of the complement is the map itself. -/
theorem complement_complement (m : Map) (h : 0 ≤ m.numBoundaryDofs) : complement (complement m) = m := by
  unfold complement
  dsimp only
  rw [List.map_map]
  have : ((fun row : List Int => row.map fun d => -d - 1) ∘ fun row : List Int => row.map fun d => -d - 1) = id := by
    funext row
    simp only [Function.comp_apply, List.map_map, id]
    conv_rhs => rw [← List.map_id row]
    refine List.map_congr_left fun d _ => ?_
    simp only [Function.comp_apply, id]
    omega
  rw [this, List.map_id]
  obtain ⟨d, n, b⟩ := m
  simp only [Map.mk.injEq, true_and]
  dsimp only at h
  omega

/-- Each entry is reflected: interior dof `k` becomes boundary dof `k` and conversely. -/
theorem complement_entry (m : Map) (i l : Nat) : (complement m).entry i l = (m.entry i l).map fun d => -d - 1 := by
  unfold complement Map.entry
  dsimp only
  by_cases h : i < m.dofs.length
  · rw [List.getD_eq_getElem _ _ (show i < (m.dofs.map fun row => row.map fun d => -d - 1).length by rw [List.length_map]; exact h),
      List.getElem_map, List.getElem?_map, List.getD_eq_getElem _ _ h]
  · rw [List.getD_eq_default _ _ (by rw [List.length_map]; omega), List.getD_eq_default _ _ (by omega)]
    rfl

/-- Interior dofs become boundary dofs, boundary dofs interior dofs, and the ranges are exchanged. -/
theorem complement_sign (m : Map) (hb : 0 ≤ m.numBoundaryDofs) (i l : Nat) (d d' : Int) (h : m.entry i l = some d) (h' : (complement m).entry i l = some d') :
    (0 ≤ d' ↔ d < 0) ∧ (-m.numBoundaryDofs ≤ d ∧ d < m.numDofs ↔ -(complement m).numBoundaryDofs ≤ d' ∧ d' < (complement m).numDofs) := by
  rw [complement_entry, h] at h'
  simp only [Option.map_some, Option.some.injEq] at h'
  show _ ∧ (_ ↔ -(m.numDofs : Int) ≤ d' ∧ d' < (m.numBoundaryDofs.toNat : Int))
  omega

/-- Combination of two maps with complementary dofs: all dofs are interior; those of the first map keep their numbers, those of the second
follow. -/
theorem combine_entry (m1 m2 m : Map) (h : combine m1 m2 = some m) (i l : Nat) (d1 d2 : Int) (h1 : m1.entry i l = some d1) (h2 : m2.entry i l = some d2) :
    (0 ≤ d1 ∧ d2 < 0 ∧ m.entry i l = some d1) ∨ (d1 < 0 ∧ 0 ≤ d2 ∧ m.entry i l = some (m1.numDofs + d2)) := by
  unfold combine at h
  split at h
  · rename_i hc
    obtain ⟨dofs, hd, rfl⟩ := Option.map_eq_some_iff.1 h
    have hi1 : i < m1.dofs.length := by
      by_contra hn
      unfold Map.entry at h1
      rw [List.getD_eq_default _ _ (by omega)] at h1
      cases h1
    have hi2 : i < m2.dofs.length := by
      by_contra hn
      unfold Map.entry at h2
      rw [List.getD_eq_default _ _ (by omega)] at h2
      cases h2
    have hrow := (mapM_eq_some.1 hd)
    have hlen := hrow.length_eq
    have hi : i < dofs.length := by rw [← hlen, List.length_zip]; omega
    have hri := List.Forall₂.get hrow (show i < (m1.dofs.zip m2.dofs).length by omega) hi
    simp only [List.get_eq_getElem, List.getElem_zip] at hri
    unfold combineRow at hri
    have hr2 := mapM_eq_some.1 hri
    unfold Map.entry at h1 h2 ⊢
    rw [List.getD_eq_getElem _ _ hi1] at h1
    rw [List.getD_eq_getElem _ _ hi2] at h2
    dsimp only
    rw [List.getD_eq_getElem _ _ hi]
    obtain ⟨l1, e1⟩ := List.getElem?_eq_some_iff.1 h1
    obtain ⟨l2, e2⟩ := List.getElem?_eq_some_iff.1 h2
    have hl2 := hr2.length_eq
    have hz : l < (m1.dofs[i].zip m2.dofs[i]).length := by rw [List.length_zip]; omega
    have hl : l < dofs[i].length := by omega
    have hfin := List.Forall₂.get hr2 hz hl
    simp only [List.get_eq_getElem, List.getElem_zip] at hfin
    rw [e1, e2] at hfin
    unfold combineOne at hfin
    rw [List.getElem?_eq_getElem hl]
    split at hfin
    · rename_i hq
      left
      cases hfin
      exact ⟨hq.1, hq.2, rfl⟩
    · split at hfin
      · rename_i hq
        right
        refine ⟨hq.1, hq.2, ?_⟩
        rw [← Option.some.inj hfin]
      · cases hfin
  · cases h

/-- A map can be combined with its complement. -/
theorem combine_complement (m : Map) (hb : 0 ≤ m.numBoundaryDofs) :
    ∃ m', combine m (complement m) = some m' ∧ m'.numBoundaryDofs = 0 ∧ (m'.numDofs : Int) = m.numDofs + m.numBoundaryDofs ∧
      m'.dofs = m.dofs.map fun row => row.map fun d => if 0 ≤ d then d else (m.numDofs : Int) + (-d - 1) := by
  have hrow : ∀ row : List Int, combineRow m.numDofs row (row.map fun d => -d - 1) = some (row.map fun d => if 0 ≤ d then d else (m.numDofs : Int) + (-d - 1)) := by
    intro row
    unfold combineRow
    rw [mapM_eq_some]
    induction row with
    | nil => exact List.Forall₂.nil
    | cons d row ih =>
      refine List.Forall₂.cons ?_ ih
      unfold combineOne
      dsimp only
      by_cases h : 0 ≤ d
      · rw [if_pos ⟨h, by omega⟩, if_pos h]
      · rw [if_neg (fun q => h q.1), if_pos (by omega), if_neg h]
  refine ⟨⟨m.dofs.map fun row => row.map fun d => if 0 ≤ d then d else (m.numDofs : Int) + (-d - 1), m.numDofs + m.numBoundaryDofs.toNat, 0⟩, ?_, rfl, ?_, rfl⟩
  · unfold combine complement
    dsimp only
    rw [if_pos ⟨rfl, by omega⟩]
    rw [Option.map_eq_some_iff]
    refine ⟨_, mapM_eq_some.2 ?_, rfl⟩
    generalize m.dofs = rows
    induction rows with
    | nil => exact List.Forall₂.nil
    | cons row rows ih => exact List.Forall₂.cons (hrow row) ih
  · dsimp only; push_cast; omega

/-- Combining with the complement keeps dofs apart and gives the numbers `0, …, num_dofs + num_boundary_dofs - 1`. -/
theorem combine_complement_bijective (n b : Nat) :
    (∀ d d' : Int, -(b : Int) ≤ d → d < n → -(b : Int) ≤ d' → d' < n →
      (if 0 ≤ d then d else n + (-d - 1)) = (if 0 ≤ d' then d' else n + (-d' - 1)) → d = d') ∧
    ∀ v : Int, (0 ≤ v ∧ v < n + b) ↔ ∃ d : Int, -(b : Int) ≤ d ∧ d < n ∧ (if 0 ≤ d then d else n + (-d - 1)) = v := by
  refine ⟨fun d d' _ _ _ _ h => ?_, fun v => ⟨fun h => ?_, ?_⟩⟩
  · split at h <;> split at h <;> omega
  · by_cases hv : v < n
    · exact ⟨v, by omega, hv, if_pos h.1⟩
    · exact ⟨n - v - 1, by omega, by omega, by rw [if_neg (by omega)]; omega⟩
  · rintro ⟨d, h1, h2, rfl⟩
    split <;> omega

/-- Number of component `j` of the scalar dof `s`. -/
theorem productDofs_getElem? (n : Nat) (s : Int) (j : Nat) (hj : j < n) :
    (productDofs n s)[j]? = some (if 0 ≤ s then n * s + j else n * (s + 1) - j - 1) := by
  unfold productDofs
  split <;> rw [List.getElem?_map, List.getElem?_range hj] <;> rfl

/-- Entry of the product map: local dofs of a node follow each other. -/
theorem product_entry (m : Map) (n i l j : Nat) (hj : j < n) (d : Int) (h : m.entry i l = some d) :
    (product m n).entry i (l * n + j) = some (if 0 ≤ d then n * d + j else n * (d + 1) - j - 1) := by
  have key : ∀ (row : List Int) (l : Nat), row[l]? = some d → (row.flatMap (productDofs n))[l * n + j]? = some (if 0 ≤ d then n * d + j else n * (d + 1) - j - 1) := by
    have hlen : ∀ s, (productDofs n s).length = n := fun s => by unfold productDofs; split <;> rw [List.length_map, List.length_range]
    intro row
    induction row with
    | nil => intro l h; cases h
    | cons a row ih =>
      intro l h
      rw [List.flatMap_cons]
      cases l with
      | zero =>
        rw [List.getElem?_append_left (by rw [hlen]; omega), Nat.zero_mul, Nat.zero_add]
        simp only [List.getElem?_cons_zero, Option.some.injEq] at h
        rw [h, productDofs_getElem? n d j hj]
      | succ l =>
        rw [List.getElem?_append_right (by rw [hlen, Nat.succ_mul]; omega), hlen, show (l + 1) * n + j - n = l * n + j by rw [Nat.succ_mul]; omega]
        exact ih l (by simpa using h)
  unfold product Map.entry
  dsimp only
  unfold Map.entry at h
  by_cases hi : i < m.dofs.length
  · rw [List.getD_eq_getElem _ _ (show i < (m.dofs.map fun row => row.flatMap (productDofs n)).length by rw [List.length_map]; exact hi), List.getElem_map]
    rw [List.getD_eq_getElem _ _ hi] at h
    exact key _ _ h
  · rw [List.getD_eq_default _ _ (by omega)] at h
    cases h

/-- Every number belongs to exactly one pair of a scalar dof and a component, and has the sign of the scalar dof. -/
theorem product_bijection (n : Nat) (hn : 0 < n) (v : Int) :
    (∃ s : Int, ∃ j, j < n ∧ (productDofs n s)[j]? = some v ∧ (0 ≤ v ↔ 0 ≤ s)) ∧
    ∀ (s s' : Int) (j j' : Nat), (productDofs n s)[j]? = some v → (productDofs n s')[j']? = some v → s = s' ∧ j = j' := by
  have hlen : ∀ s, (productDofs n s).length = n := fun s => by unfold productDofs; split <;> rw [List.length_map, List.length_range]
  have hn' : (0 : Int) < n := by omega
  constructor
  · have e1 := Int.emod_add_mul_ediv v n
    have e2 := Int.emod_nonneg v (show (n : Int) ≠ 0 by omega)
    have e3 := Int.emod_lt_of_pos v hn'
    by_cases hv : 0 ≤ v
    · have hq := Int.ediv_nonneg hv hn'.le
      refine ⟨v / n, (v % n).toNat, by omega, ?_, by simp [hv, hq]⟩
      rw [productDofs_getElem? n _ _ (by omega), if_pos hq]
      congr 1
      rw [Int.toNat_of_nonneg e2]
      linarith
    · have hq : v / n < 0 := Int.ediv_neg_of_neg_of_pos (by omega) hn'
      refine ⟨v / n, (n - 1 - v % n).toNat, by omega, ?_, by constructor <;> intro <;> omega⟩
      rw [productDofs_getElem? n _ _ (by omega), if_neg (by omega)]
      congr 1
      rw [Int.toNat_of_nonneg (by omega)]
      linarith
  · intro s s' j j' h h'
    have hj : j < n := by rw [← hlen s]; exact (List.getElem?_eq_some_iff.1 h).1
    have hj' : j' < n := by rw [← hlen s']; exact (List.getElem?_eq_some_iff.1 h').1
    rw [productDofs_getElem? n s j hj] at h
    rw [productDofs_getElem? n s' j' hj'] at h'
    have h := Option.some.inj h
    have h' := Option.some.inj h'
    have uniq : ∀ (a b : Int) (p q : Int), 0 ≤ p → p < n → 0 ≤ q → q < n → n * a + p = n * b + q → a = b ∧ p = q := by
      intro a b p q h1 h2 h3 h4 h5
      have : a = b := by
        by_contra hne
        rcases lt_or_gt_of_ne hne with hlt | hlt
        · nlinarith
        · nlinarith
      subst this
      exact ⟨rfl, by omega⟩
    split at h <;> split at h'
    · have := uniq s s' j j' (by omega) (by omega) (by omega) (by omega) (by omega); omega
    · exfalso; nlinarith
    · exfalso; nlinarith
    · have := uniq s s' (n - 1 - j) (n - 1 - j') (by omega) (by omega) (by omega) (by omega) (by linarith); omega

/-- The numbers of a gap-free map give the numbers of a gap-free product map. -/
theorem product_range (n nb num : Nat) (hn : 0 < n) (s : Int) (j : Nat) (v : Int) (h : (productDofs n s)[j]? = some v) :
    (-(nb : Int) ≤ s ∧ s < num) ↔ (-(n * nb : Int) ≤ v ∧ v < n * num) := by
  have hlen : ∀ s, (productDofs n s).length = n := fun s => by unfold productDofs; split <;> rw [List.length_map, List.length_range]
  have hj : j < n := by rw [← hlen s]; exact (List.getElem?_eq_some_iff.1 h).1
  rw [productDofs_getElem? n s j hj] at h
  have h := Option.some.inj h
  have hnz : (0 : Int) < n := by omega
  have hnum : (0 : Int) ≤ num := by omega
  have hnb : (0 : Int) ≤ nb := by omega
  split at h
  · rename_i hs
    constructor
    · rintro ⟨-, h2⟩
      exact ⟨by nlinarith, by nlinarith⟩
    · rintro ⟨-, h2⟩
      refine ⟨by omega, ?_⟩
      by_contra hc
      have : (num : Int) ≤ s := by omega
      nlinarith
  · rename_i hs
    constructor
    · rintro ⟨h1, -⟩
      exact ⟨by nlinarith, by nlinarith⟩
    · rintro ⟨h1, -⟩
      refine ⟨?_, by omega⟩
      by_contra hc
      have : s + 1 ≤ -(nb : Int) := by omega
      nlinarith

/-- The complement of the product is the product of the complement. -/
theorem product_complement (m : Map) (n : Nat) (hb : 0 ≤ m.numBoundaryDofs) : complement (product m n) = product (complement m) n := by
  unfold complement product
  dsimp only
  have hdof : ∀ d : Int, (productDofs n d).map (fun v => -v - 1) = productDofs n (-d - 1) := by
    intro d
    unfold productDofs
    by_cases h : 0 ≤ d
    · rw [if_pos h, if_neg (by omega), List.map_map]
      refine List.map_congr_left fun j _ => ?_
      simp only [Function.comp_apply]
      ring
    · rw [if_neg h, if_pos (by omega), List.map_map]
      refine List.map_congr_left fun j _ => ?_
      simp only [Function.comp_apply]
      ring
  simp only [Map.mk.injEq]
  refine ⟨?_, ?_, by push_cast; ring⟩
  · rw [List.map_map, List.map_map]
    refine List.map_congr_left fun row _ => ?_
    simp only [Function.comp_apply]
    rw [List.map_flatMap, List.flatMap_map]
    congr 1
    funext d
    exact hdof d
  · obtain ⟨b, hb'⟩ := Int.eq_ofNat_of_zero_le hb
    rw [hb']
    show ((n : Int) * b).toNat = n * (b : Int).toNat
    rw [← Int.natCast_mul, Int.toNat_natCast, Int.toNat_natCast]

/-- What complement and combination keep of the map they start from. -/
theorem copy_keeps_partial {N : Type} (o o' : Object N) : (o.complement.element = o.element ∧ o.complement.nodes = o.nodes ∧
      o.complement.dofsPerElement = o.dofsPerElement ∧ o.complement.table = complement o.table) ∧
    ∀ c, o.combine o' = some c → c.element = o.element ∧ c.nodes = o.nodes ∧ c.dofsPerElement = o.dofsPerElement := by
  refine ⟨⟨rfl, rfl, rfl, rfl⟩, fun c h => ?_⟩
  unfold Object.combine at h
  obtain ⟨t, -, rfl⟩ := Option.map_eq_some_iff.1 h
  exact ⟨rfl, rfl, rfl⟩

/-- The polynomial order and the dimension are lost, for every map and twice taking the complement does not restore them. -/
theorem complement_order_fails {N : Type} (o : Object N) :
    o.complement.polynomialOrder = 0 ∧ o.complement.dim = 0 ∧ (0 < o.polynomialOrder → o.complement.complement ≠ o) ∧
    ∀ o' c, o.combine o' = some c → c.polynomialOrder = 0 ∧ c.dim = 0 := by
  refine ⟨rfl, rfl, fun h q => ?_, fun o' c h => ?_⟩
  · have : o.complement.complement.polynomialOrder = 0 := rfl
    rw [q] at this
    omega
  · unfold Object.combine at h
    obtain ⟨t, -, rfl⟩ := Option.map_eq_some_iff.1 h
    exact ⟨rfl, rfl⟩

/-- Example: two triangles, P1, two boundary dofs. -/
example : complement ⟨[[0, -1, 1], [1, -1, -2]], 2, 2⟩ = ⟨[[-1, 0, -2], [-2, 0, 1]], 2, 2⟩ ∧
    combine ⟨[[0, -1, 1], [1, -1, -2]], 2, 2⟩ ⟨[[-1, 0, -2], [-2, 0, 1]], 2, 2⟩ = some ⟨[[0, 2, 1], [1, 2, 3]], 4, 0⟩ ∧
    product ⟨[[0, -1, 1], [1, -1, -2]], 2, 2⟩ 2 = ⟨[[0, 1, -1, -2, 2, 3], [2, 3, -1, -2, -3, -4]], 4, 4⟩ := by decide

end PyNucleus.Props.C39
