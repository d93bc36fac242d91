import Mathlib.Algebra.BigOperators.Field
import Mathlib.Algebra.BigOperators.Ring.Finset
import Mathlib.Tactic.Ring
import Mathlib.Tactic.Linarith
import Mathlib.Tactic.FieldSimp
import Mathlib.Tactic.NormNum
import Verif.Model.TwoPoint

/-!
C78: functions of two points.
-/

namespace PyNucleus.Props.C78

open TwoPoint

theorem foldl_sum (n : Nat) (g : Nat → ℝ) (s : ℝ) :
    (List.range n).foldl (fun r i => r + g i) s = s + ∑ i ∈ Finset.range n, g i := by
  induction n with
  | zero => simp
  | succ n ih => rw [List.range_succ, List.foldl_append, ih, Finset.sum_range_succ]; simp [add_assoc]

theorem foldl_sum₂ (n m : Nat) (g : Nat → Nat → ℝ) :
    (List.range n).foldl (fun s i => (List.range m).foldl (fun s j => s + g i j) s) 0 =
      ∑ i ∈ Finset.range n, ∑ j ∈ Finset.range m, g i j := by
  simp only [foldl_sum]
  rw [zero_add]

theorem dist2_eq (d : Nat) (x y : Nat → ℝ) : dist2 d x y = ∑ i ∈ Finset.range d, (x i - y i) ^ 2 := by
  unfold dist2
  rw [foldl_sum, zero_add]
  exact Finset.sum_congr rfl fun i _ => (sq _).symm

theorem dist2_comm (d : Nat) (x y : Nat → ℝ) : dist2 d x y = dist2 d y x := by
  rw [dist2_eq, dist2_eq]
  exact Finset.sum_congr rfl fun i _ => by ring

theorem quadratic_eq (d : Nat) (mat : Nat → Nat → ℝ) (x y : Nat → ℝ) (h : 0 < dist2 d x y) : quadratic d mat x y =
    (∑ i ∈ Finset.range d, ∑ j ∈ Finset.range d, mat i j * ((x i - y i) * (x j - y j))) / dist2 d x y := by
  unfold quadratic
  dsimp only
  rw [foldl_sum₂, Finset.sum_div]
  refine Finset.sum_congr rfl fun i _ => ?_
  rw [Finset.sum_div]
  refine Finset.sum_congr rfl fun j _ => ?_
  have h1 : √(dist2 d x y) * √(dist2 d x y) = dist2 d x y := Real.mul_self_sqrt h.le
  have h2 : √(dist2 d x y) ≠ 0 := (Real.sqrt_pos.mpr h).ne'
  calc _ = mat i j * ((x i - y i) * (x j - y j)) / (√(dist2 d x y) * √(dist2 d x y)) := by
        field_simp
    _ = _ := by rw [h1]

theorem quadratic_comm (d : Nat) (mat : Nat → Nat → ℝ) (x y : Nat → ℝ) (h : 0 < dist2 d x y) :
    quadratic d mat x y = quadratic d mat y x := by
  rw [quadratic_eq d mat x y h, quadratic_eq d mat y x (by rw [dist2_comm]; exact h), dist2_comm d y x]
  congr 1
  refine Finset.sum_congr rfl fun i _ => Finset.sum_congr rfl fun j _ => ?_
  ring

/-- Two-point functions that can be built for points with `dim` coordinates. The flag of a function or matrix given by the caller
is correct; `interfaceTwoPoint` is one-dimensional. -/
inductive Built (dim : Nat) : TwoPoint → Prop
  | lambda (f : (Nat → ℝ) → (Nat → ℝ) → ℝ) (symmetric : Bool) (h : symmetric = true → ∀ x y, f x y = f y x) :
      Built dim (mkLambda f symmetric)
  | constant (v : ℝ) : Built dim (mkConstant v)
  | matrix (n : Nat) (mat : Nat → Nat → ℝ) : Built dim (mkMatrix n mat)
  | leftRight (ll rr : ℝ) (lr rl : Option ℝ) (c : ℝ) : Built dim (mkLeftRight ll rr lr rl c)
  | interface (h1 h2 : ℝ) (left : Bool) (c : ℝ) (hd : dim = 1) : Built dim (mkInterface h1 h2 left c)
  | tempered (lam : ℝ) : Built dim (mkTempered lam dim)
  | tensor (i j : Nat) : Built dim (mkTensor i j dim)
  | smoothed (vl vr r slope : ℝ) : Built dim (mkSmoothed vl vr r slope)
  | unsym (l r : ℝ) : Built dim (mkUnsym l r)
  | inverse {f : TwoPoint} (hf : Built dim f) : Built dim (mkInverse f)
  | product {f g p : TwoPoint} (hf : Built dim f) (hg : Built dim g) (h : mul f g = some p) : Built dim p
  | lookup (find : (Nat → ℝ) → Option (Nat × (Nat → ℝ))) (cell2dof : Nat → Nat → Int) (dpe : Nat) (A : Int → Int → ℝ)
      (symmetric : Bool) (h : symmetric = true → ∀ I J, 0 ≤ I → 0 ≤ J → A I J = A J I) :
      Built dim (mkLookup find cell2dof dpe A symmetric)

theorem lookup_eq (cell2dof : Nat → Nat → Int) (dpe : Nat) (A : Int → Int → ℝ) (c1 c2 : Nat × (Nat → ℝ)) :
    lookupSum cell2dof dpe A c1 c2 = ∑ k ∈ (Finset.range dpe).filter fun k => 0 ≤ cell2dof c1.1 k,
      ∑ l ∈ (Finset.range dpe).filter fun l => 0 ≤ cell2dof c2.1 l,
        c1.2 k * A (cell2dof c1.1 k) (cell2dof c2.1 l) * c2.2 l := by
  unfold lookupSum
  rw [foldl_sum₂, Finset.sum_filter]
  refine Finset.sum_congr rfl fun k _ => ?_
  split
  · rename_i hk
    rw [Finset.sum_filter]
    refine Finset.sum_congr rfl fun l _ => ?_
    simp only [localVals, if_pos hk]
    split <;> simp
  · rename_i hk
    refine Finset.sum_eq_zero fun l _ => ?_
    simp [localVals, if_neg hk]

/-- `lookupTwoPoint` is the bilinear form of the matrix and the basis functions at both points; only the degrees of freedom in the
interior matter, and it vanishes when a point is in no cell. -/
theorem lookup_value (find : (Nat → ℝ) → Option (Nat × (Nat → ℝ))) (cell2dof : Nat → Nat → Int) (dpe : Nat) (A : Int → Int → ℝ)
    (symmetric : Bool) (dim : Nat) (x y : Nat → ℝ) :
    (∀ c1 c2, find x = some c1 → find y = some c2 → (mkLookup find cell2dof dpe A symmetric).data.evalPtr dim x y =
      some (∑ k ∈ (Finset.range dpe).filter fun k => 0 ≤ cell2dof c1.1 k,
        ∑ l ∈ (Finset.range dpe).filter fun l => 0 ≤ cell2dof c2.1 l,
          c1.2 k * A (cell2dof c1.1 k) (cell2dof c2.1 l) * c2.2 l)) ∧
      (find x = none ∨ find y = none → (mkLookup find cell2dof dpe A symmetric).data.evalPtr dim x y = some 0) := by
  constructor
  · intro c1 c2 h1 h2
    simp only [mkLookup, Data.evalPtr, h1, h2, lookup_eq]
  · intro h
    simp only [mkLookup, Data.evalPtr]
    rcases h with h | h
    · simp [h]
    · rw [h]
      cases find x <;> rfl

theorem interface1_comm (h1 h2 : ℝ) (left : Bool) (c : ℝ) (x y : Nat → ℝ) :
    interface1 h1 h2 left c x y = interface1 h1 h2 left c y x := by
  unfold interface1
  split
  · by_cases a1 : x 0 ≤ c <;> by_cases a2 : y 0 ≤ c <;> by_cases a3 : x 0 ≤ c - h2 <;> by_cases a4 : y 0 ≤ c - h2 <;>
      simp [a1, a2, a3, a4, not_le.mp]
  · by_cases a1 : c ≤ x 0 <;> by_cases a2 : c ≤ y 0 <;> by_cases a3 : c + h1 ≤ x 0 <;> by_cases a4 : c + h1 ≤ y 0 <;>
      simp [a1, a2, a3, a4, not_le.mp]

/-- Both ways of evaluation are symmetric when the flag is set. -/
theorem symmetric_both {dim : Nat} {f : TwoPoint} (hf : Built dim f) (h : f.symmetric = true) (x y : Nat → ℝ) :
    f.data.evalPtr dim x y = f.data.evalPtr dim y x ∧ f.data.eval dim x y = f.data.eval dim y x := by
  induction hf with
  | lambda f s hs => simp only [mkLambda] at h ⊢; simp [Data.evalPtr, Data.eval, hs h x y]
  | constant v => exact ⟨rfl, rfl⟩
  | matrix n mat =>
    simp only [mkMatrix, Data.evalPtr, Data.eval, dist2_comm dim y x]
    by_cases hd : 0 < dist2 dim x y
    · simp [hd, quadratic_comm dim mat x y hd]
    · simp [hd]
  | leftRight ll rr lr rl c =>
    simp only [mkLeftRight, decide_eq_true_eq] at h
    simp only [mkLeftRight, Data.evalPtr, Data.eval, h]
    by_cases h1 : x 0 < c <;> by_cases h2 : y 0 < c <;> simp [h1, h2]
  | interface h1 h2 left c hd => subst hd; simp [mkInterface, Data.evalPtr, Data.eval, interface1_comm h1 h2 left c x y]
  | tempered lam => simp [mkTempered, Data.evalPtr, Data.eval, dist2_comm dim x y]
  | tensor i j =>
    simp only [mkTensor, Data.evalPtr, Data.eval, dist2_comm dim y x, and_self, Option.some.injEq]
    rw [show (y i - x i) * (y j - x j) = (x i - y i) * (x j - y j) by ring]
  | smoothed vl vr r slope => simp [mkSmoothed] at h
  | unsym l r =>
    simp only [mkUnsym, decide_eq_true_eq] at h
    simp [mkUnsym, Data.evalPtr, Data.eval, h]
  | inverse hf ih =>
    obtain ⟨e1, e2⟩ := ih h
    simp only [mkInverse, Data.evalPtr, Data.eval, e1, e2, and_self]
  | @product f g p hf hg hp ihf ihg =>
    have key : ∀ p, mkProduct f g = some p → p.symmetric = true →
        p.data.evalPtr dim x y = p.data.evalPtr dim y x ∧ p.data.eval dim x y = p.data.eval dim y x := by
      intro p hp h
      unfold mkProduct at hp
      split at hp
      · obtain rfl := Option.some.inj hp
        simp only [Bool.and_eq_true] at h
        have e1 := (ihf h.1).1
        have e2 := (ihg h.2).1
        simp only [Data.evalPtr, Data.eval, e1, e2, and_self]
      · exact absurd hp (by simp)
    unfold mul at hp
    split at hp
    · obtain rfl := Option.some.inj hp
      exact ⟨rfl, rfl⟩
    · exact key p hp h
  | lookup find cell2dof dpe A s hs =>
    have hs := hs h
    have key : (mkLookup find cell2dof dpe A s).data.evalPtr dim x y = (mkLookup find cell2dof dpe A s).data.evalPtr dim y x := by
      cases hx : find x with
      | none => rw [((lookup_value find cell2dof dpe A s dim x y).2) (Or.inl hx),
          ((lookup_value find cell2dof dpe A s dim y x).2) (Or.inr hx)]
      | some c1 =>
        cases hy : find y with
        | none => rw [((lookup_value find cell2dof dpe A s dim x y).2) (Or.inr hy),
            ((lookup_value find cell2dof dpe A s dim y x).2) (Or.inl hy)]
        | some c2 =>
          rw [((lookup_value find cell2dof dpe A s dim x y).1) c1 c2 hx hy,
            ((lookup_value find cell2dof dpe A s dim y x).1) c2 c1 hy hx, Finset.sum_comm]
          congr 1
          refine Finset.sum_congr rfl fun l hl => Finset.sum_congr rfl fun k hk => ?_
          rw [hs _ _ (Finset.mem_filter.mp hk).2 (Finset.mem_filter.mp hl).2]
          ring
    exact ⟨key, key⟩

/-- The flag `symmetric` implies that the arguments can be exchanged. -/
theorem symmetric_partial {dim : Nat} {f : TwoPoint} (hf : Built dim f) (h : f.symmetric = true) (x y : Nat → ℝ) :
    f.data.evalPtr dim x y = f.data.evalPtr dim y x :=
  (symmetric_both hf h x y).1

/-- Values of `matrixTwoPoint` can be exchanged also when the matrix is not symmetric. -/
theorem matrix_symmetric (n : Nat) (mat : Nat → Nat → ℝ) (dim : Nat) (x y : Nat → ℝ) :
    (mkMatrix n mat).data.evalPtr dim x y = (mkMatrix n mat).data.evalPtr dim y x := by
  simp only [mkMatrix, Data.evalPtr, dist2_comm dim y x]
  by_cases hd : 0 < dist2 dim x y
  · simp [hd, quadratic_comm dim mat x y hd]
  · simp [hd]

/-- `eval` and `evalPtr` agree for different points. -/
theorem eval_partial {dim : Nat} {f : TwoPoint} (hf : Built dim f) (x y : Nat → ℝ) (h : ∃ i < dim, x i ≠ y i) :
    f.data.eval dim x y = f.data.evalPtr dim x y := by
  have hd : 0 < dist2 dim x y := by
    obtain ⟨i, hi, h⟩ := h
    rw [dist2_eq]
    refine Finset.sum_pos' (fun j _ => sq_nonneg _) ⟨i, Finset.mem_range.mpr hi, ?_⟩
    have := sub_ne_zero.mpr h
    positivity
  induction hf with
  | lambda f s hs => rfl
  | constant v => rfl
  | matrix n mat => simp [mkMatrix, Data.eval, Data.evalPtr, hd]
  | leftRight ll rr lr rl c => rfl
  | interface h1 h2 left c hd => rfl
  | tempered lam => rfl
  | tensor i j => rfl
  | smoothed vl vr r slope => rfl
  | unsym l r => rfl
  | inverse hf ih => simp only [mkInverse, Data.eval, Data.evalPtr, ih]
  | @product f g p hf hg hp ihf ihg =>
    unfold mul at hp
    split at hp
    · obtain rfl := Option.some.inj hp
      rfl
    · unfold mkProduct at hp
      split at hp
      · obtain rfl := Option.some.inj hp
        rfl
      · exact absurd hp (by simp)
  | lookup find cell2dof dpe A s hs => rfl

/-- All these functions have one value. -/
theorem valueSize_one {dim : Nat} {f : TwoPoint} (hf : Built dim f) : f.valueSize = 1 := by
  induction hf with
  | @product f g p hf hg hp ihf ihg =>
    unfold mul at hp
    split at hp
    · obtain rfl := Option.some.inj hp
      rfl
    · unfold mkProduct at hp
      split at hp
      · obtain rfl := Option.some.inj hp
        rfl
      · exact absurd hp (by simp)
  | _ => rfl

/-- Products exist, are evaluated pointwise and are flagged symmetric when both factors are. -/
theorem product_value {dim : Nat} {f g : TwoPoint} (hf : Built dim f) (hg : Built dim g) : ∃ p, mul f g = some p ∧ Built dim p ∧
    (f.symmetric = true → g.symmetric = true → p.symmetric = true) ∧
    ∀ x y a b, f.data.evalPtr dim x y = some a → g.data.evalPtr dim x y = some b →
      p.data.evalPtr dim x y = some (a * b) := by
  have key : ∃ p, mkProduct f g = some p ∧ (f.symmetric = true → g.symmetric = true → p.symmetric = true) ∧
      ∀ x y a b, f.data.evalPtr dim x y = some a → g.data.evalPtr dim x y = some b →
        p.data.evalPtr dim x y = some (a * b) := by
    refine ⟨⟨f.symmetric && g.symmetric, 1, .product f.data g.data⟩, ?_, ?_, ?_⟩
    · simp [mkProduct, valueSize_one hf, valueSize_one hg]
    · intro h1 h2
      simp [h1, h2]
    · intro x y a b ha hb
      simp [Data.evalPtr, ha, hb]
  by_cases hc : ∃ a b, f.data = .constant a ∧ g.data = .constant b
  · obtain ⟨a, b, ha, hb⟩ := hc
    have hm : mul f g = some (mkConstant (a * b)) := by
      simp only [mul, ha, hb]
    refine ⟨_, hm, .constant _, fun _ _ => rfl, fun x y u v hu hv => ?_⟩
    rw [ha] at hu
    rw [hb] at hv
    simp only [Data.evalPtr, Option.some.injEq] at hu hv
    simp [mkConstant, Data.evalPtr, hu, hv]
  · obtain ⟨p, hp, h1, h2⟩ := key
    have hm : mul f g = some p := by
      unfold mul
      split
      · rename_i a b ha hb
        exact absurd ⟨a, b, ha, hb⟩ hc
      · exact hp
    exact ⟨p, hm, .product hf hg hm, h1, h2⟩

/-- The inverse is the reciprocal where that exists. -/
theorem inverse_value (f : TwoPoint) (dim : Nat) (x y : Nat → ℝ) (v : ℝ) (h : f.data.evalPtr dim x y = some v) (hv : v ≠ 0) :
    (mkInverse f).data.evalPtr dim x y = some v⁻¹ := by
  simp [mkInverse, Data.evalPtr, h, hv]

/-- Fixing an argument of a symmetric function: both ways give the same function. -/
theorem fixed_value {dim : Nat} {f : TwoPoint} (hf : Built dim f) (h : f.symmetric = true) (x z : Nat → ℝ) :
    fixedX f dim x z = f.data.evalPtr dim x z ∧ fixedY f dim x z = f.data.evalPtr dim z x ∧
      fixedX f dim x z = fixedY f dim x z ∧ fixedX f dim x x = diagonal f dim x :=
  ⟨rfl, rfl, symmetric_partial hf h x z, rfl⟩

/-- The tensors are the entries of the projection to the direction of the difference: their diagonal has the sum 1, and
`matrixTwoPoint` is the corresponding combination of them. -/
theorem tensor_value (dim n : Nat) (mat : Nat → Nat → ℝ) (x y : Nat → ℝ) (h : ∃ i < dim, x i ≠ y i) :
    ∃ T : Nat → Nat → ℝ, (∀ i j, (mkTensor i j dim).data.evalPtr dim x y = some (T i j)) ∧
      ∑ i ∈ Finset.range dim, T i i = 1 ∧
      (∀ i, ∑ j ∈ Finset.range dim, T i j * (x j - y j) = x i - y i) ∧
      (mkMatrix n mat).data.evalPtr dim x y =
        some (∑ i ∈ Finset.range dim, ∑ j ∈ Finset.range dim, mat i j * T i j) := by
  have hd : 0 < dist2 dim x y := by
    obtain ⟨i, hi, h⟩ := h
    rw [dist2_eq]
    refine Finset.sum_pos' (fun j _ => sq_nonneg _) ⟨i, Finset.mem_range.mpr hi, ?_⟩
    have := sub_ne_zero.mpr h
    positivity
  refine ⟨fun i j => (x i - y i) * (x j - y j) / dist2 dim x y, fun i j => by simp [mkTensor, Data.evalPtr, hd], ?_, ?_, ?_⟩
  · rw [← Finset.sum_div, div_eq_one_iff_eq hd.ne', dist2_eq]
    exact Finset.sum_congr rfl fun i _ => (sq _).symm
  · intro i
    have : ∀ j, (x i - y i) * (x j - y j) / dist2 dim x y * (x j - y j) = (x i - y i) / dist2 dim x y * (x j - y j) ^ 2 := by
      intro j
      ring
    simp only [this]
    rw [← Finset.mul_sum, ← dist2_eq, div_mul_cancel₀ _ hd.ne']
  · simp only [mkMatrix, Data.evalPtr, if_pos hd, quadratic_eq dim mat x y hd, Finset.sum_div, mul_div_assoc]

/-- Left-right functions have the value of the pair of sides; missing values for the jumps are the mean. -/
theorem leftRight_value (ll rr : ℝ) (lr rl : Option ℝ) (c : ℝ) (dim : Nat) (x y : Nat → ℝ) :
    (x 0 < c → y 0 < c → (mkLeftRight ll rr lr rl c).data.evalPtr dim x y = some ll) ∧
      (c ≤ x 0 → c ≤ y 0 → (mkLeftRight ll rr lr rl c).data.evalPtr dim x y = some rr) ∧
      (x 0 < c → c ≤ y 0 → (mkLeftRight ll rr lr rl c).data.evalPtr dim x y = some (lr.getD ((ll + rr) / 2))) ∧
      (c ≤ x 0 → y 0 < c → (mkLeftRight ll rr lr rl c).data.evalPtr dim x y = some (rl.getD ((ll + rr) / 2))) := by
  have e : ∀ o : Option ℝ, orMean ll rr o = o.getD ((ll + rr) / 2) := by
    intro o
    cases o <;> simp [orMean]
    ring
  refine ⟨fun h1 h2 => ?_, fun h1 h2 => ?_, fun h1 h2 => ?_, fun h1 h2 => ?_⟩
  · simp [mkLeftRight, Data.evalPtr, h1, h2]
  · simp [mkLeftRight, Data.evalPtr, not_lt.mpr h1, not_lt.mpr h2]
  · simp [mkLeftRight, Data.evalPtr, h1, not_lt.mpr h2, e]
  · simp [mkLeftRight, Data.evalPtr, not_lt.mpr h1, h2, e]

/-- In one dimension the left and the right function of an interface add up to 1 for two points on the same side, and for points
on different sides that are both closer to the interface than the horizons. -/
theorem interface_sum (h1 h2 c : ℝ) (x y : Nat → ℝ) (h : (x 0 < c ∧ y 0 < c) ∨ (c < x 0 ∧ c < y 0) ∨
      (c - h2 < x 0 ∧ x 0 < c ∧ c < y 0 ∧ y 0 < c + h1)) :
    ∃ a b, (mkInterface h1 h2 true c).data.evalPtr 1 x y = some a ∧ (mkInterface h1 h2 false c).data.evalPtr 1 x y = some b ∧
      a + b = 1 := by
  refine ⟨_, _, rfl, rfl, ?_⟩
  rcases h with ⟨a1, a2⟩ | ⟨a1, a2⟩ | ⟨a1, a2, a3, a4⟩
  · simp [interface1, a1, a2, a1.le, a2.le, not_le.mpr a1, not_le.mpr a2]
  · simp [interface1, a1, a2, a1.le, a2.le, not_le.mpr a1, not_le.mpr a2]
  · have b1 : ¬x 0 ≤ c - h2 := not_le.mpr a1
    have b2 : ¬c + h1 ≤ y 0 := not_le.mpr a4
    simp [interface1, a2, a3, a2.le, a3.le, not_le.mpr a2, not_le.mpr a3, not_lt.mpr a2.le, not_lt.mpr a3.le, b1, b2]
    norm_num

/-- Within the transition zone the smoothed function lies between the two values, and attains them at the ends. -/
theorem smoothed_value_partial (vl vr r slope : ℝ) (hr : 0 < r) (hs : 0 < slope) (dim : Nat) (x y : Nat → ℝ)
    (hx : -r ≤ x 0 ∧ x 0 ≤ r) : ∃ v, (mkSmoothed vl vr r slope).data.evalPtr dim x y = some v ∧
      min vl vr ≤ v ∧ v ≤ max vl vr ∧ (x 0 = -r → v = vl) ∧ (x 0 = r → v = vr) := by
  refine ⟨_, rfl, ?_⟩
  have hpos : 0 < Real.arctan (r * slope) := by
    rw [← Real.arctan_zero]
    exact Real.arctan_strictMono (mul_pos hr hs)
  set q := Real.arctan (x 0 * slope) * (1 / Real.arctan (r * slope)) with hq
  have hup : q ≤ 1 := by
    rw [hq, mul_one_div, div_le_one hpos]
    exact Real.arctan_strictMono.monotone (mul_le_mul_of_nonneg_right hx.2 hs.le)
  have hlo : -1 ≤ q := by
    rw [hq, mul_one_div, le_div_iff₀ hpos, neg_one_mul, ← Real.arctan_neg]
    refine Real.arctan_strictMono.monotone ?_
    rw [← neg_mul]
    exact mul_le_mul_of_nonneg_right hx.1 hs.le
  have e : 1 / 2 * (vl + vr) + 1 / 2 * (vr - vl) * Real.arctan (x 0 * slope) * (1 / Real.arctan (r * slope)) =
      (1 - q) / 2 * vl + (1 + q) / 2 * vr := by
    rw [hq]
    ring
  rw [e]
  have a1 : 0 ≤ (1 - q) / 2 := by linarith
  have a2 : 0 ≤ (1 + q) / 2 := by linarith
  refine ⟨?_, ?_, fun h => ?_, fun h => ?_⟩
  · calc min vl vr = (1 - q) / 2 * min vl vr + (1 + q) / 2 * min vl vr := by ring
      _ ≤ _ := add_le_add (mul_le_mul_of_nonneg_left (min_le_left _ _) a1) (mul_le_mul_of_nonneg_left (min_le_right _ _) a2)
  · calc _ ≤ (1 - q) / 2 * max vl vr + (1 + q) / 2 * max vl vr :=
        add_le_add (mul_le_mul_of_nonneg_left (le_max_left _ _) a1) (mul_le_mul_of_nonneg_left (le_max_right _ _) a2)
      _ = max vl vr := by ring
  · have : q = -1 := by
      rw [hq, h, neg_mul, Real.arctan_neg, mul_one_div, neg_div, div_self hpos.ne']
    rw [this]
    ring
  · have : q = 1 := by
      rw [hq, h, mul_one_div, div_self hpos.ne']
    rw [this]
    ring

/-- The tempering is 1 at equal points, and otherwise a positive number that decays exponentially with the distance. -/
theorem tempered_value (lam : ℝ) (dim : Nat) (x y : Nat → ℝ) : ∃ v, (mkTempered lam dim).data.evalPtr dim x y = some v ∧ 0 < v ∧
    Real.log v = -lam * √(∑ i ∈ Finset.range dim, (x i - y i) ^ 2) :=
  ⟨_, rfl, Real.exp_pos _, by rw [Real.log_exp, dist2_eq]⟩

/-- `unsymTwoPoint` distinguishes the order of the first coordinates. -/
theorem unsym_value (l r : ℝ) (dim : Nat) (x y : Nat → ℝ) :
    (x 0 < y 0 → (mkUnsym l r).data.evalPtr dim x y = some l ∧ (mkUnsym l r).data.evalPtr dim y x = some r) ∧
      ((mkUnsym l r).symmetric = true ↔ l = r) := by
  refine ⟨fun h => ?_, by simp [mkUnsym]⟩
  simp [mkUnsym, Data.evalPtr, h, not_lt.mpr h.le]

/-- Functions that contain no `matrixTwoPoint` at the top are rebuilt. -/
theorem reduce_partial {dim : Nat} {f : TwoPoint} (hf : Built dim f) (hm : ∀ n mat, f.data ≠ .matrix n mat) :
    reduce f = some f := by
  induction hf with
  | lambda f s hs => rfl
  | constant v => rfl
  | matrix n mat => exact absurd rfl (hm n mat)
  | leftRight ll rr lr rl c => cases lr <;> cases rl <;> rfl
  | interface h1 h2 left c hd => rfl
  | tempered lam => rfl
  | tensor i j => rfl
  | smoothed vl vr r slope => rfl
  | unsym l r => rfl
  | inverse hf ih => rfl
  | @product f g p hf hg hp ihf ihg =>
    unfold mul at hp
    split at hp
    · obtain rfl := Option.some.inj hp
      rfl
    · unfold mkProduct at hp
      split at hp
      · obtain rfl := Option.some.inj hp
        simp [reduce, mkProduct]
      · exact absurd hp (by simp)
  | lookup find cell2dof dpe A s hs => rfl

/-! ### Cases -/

example : Built 2 (mkInverse (mkTempered 1 2)) := .inverse (.tempered 1)

example : ∃ p, mul (mkTensor 0 1 2) (mkConstant 3) = some p ∧ Built 2 p :=
  let ⟨p, h, hb, _⟩ := product_value (.tensor 0 1) (.constant (dim := 2) 3)
  ⟨p, h, hb⟩

example : (mkLeftRight 1 3 none (some 5) 0).data.evalPtr 1 (fun _ => -1) (fun _ => 1) = some 2 ∧
    (mkLeftRight 1 3 none (some 5) 0).data.evalPtr 1 (fun _ => 1) (fun _ => -1) = some 5 ∧
    (mkLeftRight 1 3 none (some 5) 0).symmetric = false := by
  refine ⟨?_, ?_, ?_⟩
  · rw [(leftRight_value 1 3 none (some 5) 0 1 _ _).2.2.1 (by norm_num) (by norm_num)]
    norm_num
  · rw [(leftRight_value 1 3 none (some 5) 0 1 _ _).2.2.2 (by norm_num) (by norm_num)]
    norm_num
  · simp only [mkLeftRight, orMean, decide_eq_false_iff_not]
    norm_num

example : ∃ v, (mkSmoothed 2 5 1 1).data.evalPtr 1 (fun _ => 1) (fun _ => 0) = some v ∧ v = 5 :=
  let ⟨v, h, _, _, _, h'⟩ := smoothed_value_partial 2 5 1 1 one_pos one_pos 1 (fun _ => 1) (fun _ => 0) (by norm_num)
  ⟨v, h, h' rfl⟩

/-! ### Defects -/

/-- `interfaceTwoPoint` is flagged symmetric, but is not in two dimensions. -/
theorem symmetric_fails : ∃ (f : TwoPoint) (x y : Nat → ℝ), f = mkInterface (1 / 4) (1 / 4) true 0 ∧ f.symmetric = true ∧
    f.data.evalPtr 2 x y = some 1 ∧ f.data.evalPtr 2 y x = some (1 / 2) := by
  refine ⟨_, fun i => if i = 0 then -1 else 1 / 2, fun i => if i = 0 then 1 else 1 / 2, rfl, rfl, ?_, ?_⟩
  · simp only [mkInterface, Data.evalPtr, interface2, inStrip]
    norm_num
  · simp only [mkInterface, Data.evalPtr, interface2, inStrip]
    norm_num

/-- The right function is not symmetric at the distance of the horizon from the interface. -/
theorem symmetric_right_fails : ∃ (f : TwoPoint) (x y : Nat → ℝ), f = mkInterface (1 / 4) (1 / 4) false 0 ∧
    f.symmetric = true ∧ f.data.evalPtr 2 x y = some 1 ∧ f.data.evalPtr 2 y x = some (1 / 2) := by
  refine ⟨_, fun i => if i = 0 then 1 / 4 else 1 / 2, fun i => if i = 0 then -1 else 1 / 2, rfl, rfl, ?_, ?_⟩
  · simp only [mkInterface, Data.evalPtr, interface2, inStrip]
    norm_num
  · simp only [mkInterface, Data.evalPtr, interface2, inStrip]
    norm_num

/-- In three dimensions `interfaceTwoPoint` stores no value. -/
theorem interface_fails (h1 h2 : ℝ) (left : Bool) (c : ℝ) (x y : Nat → ℝ) :
    (mkInterface h1 h2 left c).data.evalPtr 3 x y = none := by
  simp [mkInterface, Data.evalPtr]

/-- `matrixTwoPoint` has a value for equal points only through `evalPtr`, and cannot be rebuilt. -/
theorem matrix_fails (n dim : Nat) (mat : Nat → Nat → ℝ) (x : Nat → ℝ) : (mkMatrix n mat).data.evalPtr dim x x = some 1 ∧
    (mkMatrix n mat).data.eval dim x x = none ∧ reduce (mkMatrix n mat) = none := by
  have : dist2 dim x x = 0 := by
    rw [dist2_eq]
    simp
  simp [mkMatrix, Data.evalPtr, Data.eval, this, reduce]

/-- Outside of the transition zone the smoothed function is not constant and exceeds the two values. -/
theorem smoothed_fails : ∃ (x y : Nat → ℝ) (v : ℝ), (mkSmoothed 0 1 1 1).data.evalPtr 1 x y = some v ∧ 1 < x 0 ∧ 1 < v := by
  refine ⟨fun _ => 2, fun _ => 0, _, rfl, by norm_num, ?_⟩
  have hpos : 0 < Real.arctan (1 * 1) := by
    rw [← Real.arctan_zero]
    exact Real.arctan_strictMono (by norm_num)
  have h2 : Real.arctan (1 * 1) < Real.arctan (2 * 1) := Real.arctan_strictMono (by norm_num)
  have : 1 < Real.arctan (2 * 1) * (1 / Real.arctan (1 * 1)) := by
    rw [mul_one_div, one_lt_div hpos]
    exact h2
  nlinarith

end PyNucleus.Props.C78
