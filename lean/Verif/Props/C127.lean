import Verif.Model.GradRHS
import Verif.Props.C56

/-!
# C127: right-hand sides with gradients

Code modelled: see Verif/Model/GradRHS.lean.
-/

namespace PyNucleus.Props.C127

open PyNucleus.GradRHS PyNucleus.SimplexGeometry
open PyNucleus.Simplex (IsGradient inner)
open PyNucleus.Props.C56 (edgeDet)

variable {K : Type} [Field K] [LinearOrder K] [IsStrictOrderedRing K]

/-- The quadrature of the function over the reference cell. -/
def quad (m : Nat) (w f : Nat → K) : K := ∑ j ∈ Finset.range m, w j * f j

private theorem nodes_spec (m : Nat) (w : Nat → K) (d : Nat) (coeff : Vec K → Vec K) (c : Cell K) (k I : Nat) (data : Nat → K) :
    addNodes m w d coeff c k I data
      = fun i => data i + if i = I then quad m w c.f * (cellVolume d c.x * (products d coeff c.x).getD k 0) else 0 := by
  unfold addNodes quad
  induction m with
  | zero => funext i; simp
  | succ m ih =>
    rw [List.range_succ, List.foldl_append, ih]
    funext i
    simp only [List.foldl_cons, List.foldl_nil, Function.update_apply, if_true]
    by_cases h : i = I
    · subst h; simp only [if_true, Finset.sum_range_succ]; ring
    · simp [h]

private theorem cell_spec (m : Nat) (w : Nat → K) (d : Nat) (coeff : Vec K → Vec K) (c : Cell K) (data : Nat → K) (n : Nat) :
    (List.range n).foldl (fun data k => if c.dofs k < 0 then data else addNodes m w d coeff c k (c.dofs k).toNat data) data
      = fun i => data i + ∑ k ∈ Finset.range n,
          if c.dofs k = (i : Int) then quad m w c.f * (cellVolume d c.x * (products d coeff c.x).getD k 0) else 0 := by
  induction n with
  | zero => funext i; simp
  | succ n ih =>
    rw [List.range_succ, List.foldl_append, ih]
    simp only [List.foldl_cons, List.foldl_nil]
    funext i
    rw [Finset.sum_range_succ]
    by_cases h : c.dofs n < 0
    · rw [if_pos h, if_neg (by omega), add_zero]
    · rw [if_neg h, nodes_spec]
      dsimp only
      by_cases h2 : c.dofs n = (i : Int)
      · rw [if_pos h2, if_pos (by omega)]; ring
      · rw [if_neg h2, if_neg (by omega)]; ring

/-- Every entry is the sum over the cells and their dofs with this number; dofs on the boundary are left out. -/
theorem entries (m : Nat) (w : Nat → K) (d : Nat) (coeff : Vec K → Vec K) (cells : List (Cell K)) (i : Nat) :
    rhs m w d coeff cells i = (cells.map fun c => ∑ k ∈ Finset.range (d + 1),
      if c.dofs k = (i : Int) then quad m w c.f * (cellVolume d c.x * (products d coeff c.x).getD k 0) else 0).sum := by
  unfold rhs
  have : ∀ data : Nat → K, cells.foldl (addCell m w d coeff) data i = data i + (cells.map fun c => ∑ k ∈ Finset.range (d + 1),
      if c.dofs k = (i : Int) then quad m w c.f * (cellVolume d c.x * (products d coeff c.x).getD k 0) else 0).sum := by
    induction cells with
    | nil => intro data; simp
    | cons c cells ih =>
      intro data
      rw [List.foldl_cons, ih, List.map_cons, List.sum_cons]
      unfold addCell
      rw [cell_spec]
      ring
  rw [this]; ring

private theorem vol_eq (d : Nat) (h1 : 1 ≤ d) (h2 : d ≤ 2) (x : Coords K) : cellVolume d x = |edgeDet d x| / d.factorial := by
  unfold cellVolume
  interval_cases d
  · have e : edgeDet 1 x = x 1 0 - x 0 0 := by unfold edgeDet; simp
    rw [if_pos rfl, e]; simp
  · have e : edgeDet 2 x = diff x 1 0 0 * diff x 2 0 1 - diff x 1 0 1 * diff x 2 0 0 := by
      unfold edgeDet diff; rw [Matrix.det_fin_two]; simp
    rw [if_neg (by omega), e]
    simp only [volume2Dnew, Nat.factorial]
    push_cast; ring

/-- The volume cancels, so the products are those of the drift matrix. -/
private theorem vol_products (d : Nat) (h1 : 1 ≤ d) (h2 : d ≤ 2) (coeff : Vec K → Vec K) (x : Coords K) (hv : cellVolume d x ≠ 0) (k : Nat) (hk : k ≤ d) :
    cellVolume d x * (products d coeff x).getD k 0 = (drift d coeff x).getD k 0 * (d + 1 : Nat) := by
  unfold products drift
  interval_cases d
  · rw [if_pos rfl]
    interval_cases k <;> simp [coeffProducts1D, List.range_succ] <;> field_simp
  · rw [if_neg (by omega)]
    interval_cases k <;> simp [coeffProducts2D, List.range_succ] <;> field_simp

/-- Cells of positive orientation: the entry is the sum of the volumes times quadrature of the function times derivative of the shape function in the
direction of the coefficient at the barycenter.  Missing: negative orientation. -/
theorem rhs_partial (m : Nat) (w : Nat → K) (d : Nat) (h1 : 1 ≤ d) (h2 : d ≤ 2) (coeff : Vec K → Vec K) (cells : List (Cell K))
    (g : Cell K → Nat → Nat → K) (hg : ∀ c ∈ cells, IsGradient d d c.x (g c)) (ho : ∀ c ∈ cells, 0 < edgeDet d c.x) (i : Nat) :
    rhs m w d coeff cells i = (cells.map fun c => ∑ k ∈ Finset.range (d + 1), if c.dofs k = (i : Int) then
      |edgeDet d c.x| / d.factorial * quad m w c.f *
        inner d (coeff fun a => (∑ v ∈ Finset.range (d + 1), c.x v a) / (d + 1 : Nat)) (g c k) else 0).sum := by
  rw [entries]
  congr 1
  refine List.map_congr_left fun c hc => Finset.sum_congr rfl fun k hk => ?_
  have hk : k ≤ d := by have := Finset.mem_range.mp hk; omega
  split
  · have hv : cellVolume d c.x ≠ 0 := by
      rw [vol_eq d h1 h2, abs_of_pos (ho c hc)]
      have : (0 : K) < d.factorial := by exact_mod_cast d.factorial_pos
      exact (div_pos (ho c hc) this).ne'
    rw [vol_products d h1 h2 coeff c.x hv k hk, PyNucleus.Props.C56.drift_partial d h1 h2 coeff c.x (g c) (hg c hc) (ho c hc)]
    have hd : ((d + 1 : Nat) : K) ≠ 0 := by exact_mod_cast Nat.succ_ne_zero d
    interval_cases d <;> interval_cases k <;> simp [List.range_succ] <;> field_simp
  · rfl

/-- If all dofs of all cells are numbered, the entries add up to zero, for all orientations: the shape functions add up to a constant. -/
theorem total_zero (m : Nat) (w : Nat → K) (d : Nat) (h1 : 1 ≤ d) (h2 : d ≤ 2) (coeff : Vec K → Vec K) (cells : List (Cell K)) (n : Nat)
    (hd : ∀ c ∈ cells, ∀ k ≤ d, 0 ≤ c.dofs k ∧ c.dofs k < n) : ∑ i ∈ Finset.range n, rhs m w d coeff cells i = 0 := by
  have hz : ∀ c : Cell K, ∑ k ∈ Finset.range (d + 1), (products d coeff c.x).getD k 0 = 0 := by
    intro c
    unfold products
    interval_cases d
    · simp [Finset.sum_range_succ, coeffProducts1D]; ring
    · simp [Finset.sum_range_succ, coeffProducts2D, dotRot, diff]; ring
  induction cells with
  | nil => simp [rhs]
  | cons c cells ih =>
    have h3 := ih fun c' h => hd c' (by simp [h])
    simp only [entries, List.map_cons, List.sum_cons, Finset.sum_add_distrib] at h3 ⊢
    rw [h3, add_zero, Finset.sum_comm]
    have h4 : ∀ k ∈ Finset.range (d + 1), (∑ i ∈ Finset.range n,
        if c.dofs k = (i : Int) then quad m w c.f * (cellVolume d c.x * (products d coeff c.x).getD k 0) else 0)
        = quad m w c.f * cellVolume d c.x * (products d coeff c.x).getD k 0 := by
      intro k hk
      obtain ⟨ha, hb⟩ := hd c (by simp) k (by have := Finset.mem_range.mp hk; omega)
      rw [Finset.sum_eq_single (c.dofs k).toNat]
      · rw [if_pos (by omega)]; ring
      · intro j _ hj; rw [if_neg (by omega)]
      · intro hn; exact absurd (Finset.mem_range.mpr (by omega)) hn
    rw [Finset.sum_congr rfl h4, ← Finset.mul_sum, hz, mul_zero]

/-- The segment from 1 to 0: the sign is wrong. -/
theorem orientation_fails : ∃ (c : Cell ℚ) (g : Nat → Nat → ℚ), IsGradient 1 1 c.x g ∧ c.dofs 0 = 0 ∧ c.dofs 1 = -1 ∧
    rhs 1 (fun _ => 1) 1 (fun _ _ => 1) [c] 0 ≠ |edgeDet 1 c.x| * quad 1 (fun _ => 1) c.f * inner 1 (fun _ => 1) (g 0) ∧
    rhs 1 (fun _ => 1) 1 (fun _ _ => 1) [c] 0 = -(|edgeDet 1 c.x| * quad 1 (fun _ => 1) c.f * inner 1 (fun _ => 1) (g 0)) :=
  ⟨⟨fun i _ => if i = 1 then 0 else 1, fun k => if k = 0 then 0 else -1, fun _ => 1⟩, fun i _ => if i = 1 then -1 else 1,
    fun i j k hi hj hk => by interval_cases i <;> interval_cases j <;> interval_cases k <;> decide +kernel, rfl, rfl,
    by decide +kernel, by decide +kernel⟩

/-- A case: a square of two triangles, one vertex on the boundary. -/
theorem sample_case :
    let c1 : Cell ℚ := ⟨fun i j => if i = 1 ∧ j = 0 then 1 else if i = 2 then 1 else 0, fun k => (k : Int) - 1, fun _ => 6⟩
    let c2 : Cell ℚ := ⟨fun i j => if i = 1 then 1 else if i = 2 ∧ j = 1 then 1 else 0, fun k => if k = 0 then -1 else k, fun j => j⟩
    (List.range 3).map (rhs 2 (fun _ => 1 / 2) 2 (fun _ j => if j = 0 then 1 else 0) [c1, c2]) = [3, 1 / 4, -1 / 4] := by decide +kernel

end PyNucleus.Props.C127
