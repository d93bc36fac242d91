import Mathlib.Tactic.Ring
import Mathlib.Tactic.Linarith
import Mathlib.Tactic.FieldSimp
import Mathlib.Data.Rat.Floor
import Mathlib.Data.List.GetD
import Verif.Model.Functions

/-!
C76: arithmetic of functions is pointwise arithmetic.
-/

namespace PyNucleus.Props.C76

open Functions

section Ring

variable {K : Type} [CommRing K]

/-- `f + g`, `f - g`, `c*f`, `f*g`, `-f` are evaluated pointwise, whatever the operands are built of. -/
theorem arithmetic (f g : Fn K) (c : K) (x : Nat → K) :
    (f.add g).eval x = f.eval x + g.eval x ∧ (f.sub g).eval x = f.eval x - g.eval x ∧ (f.scale c).eval x = c * f.eval x ∧
      (f.times g).eval x = f.eval x * g.eval x ∧ f.neg.eval x = -f.eval x := by
  refine ⟨?_, ?_, rfl, rfl, ?_⟩
  · cases f <;> cases g <;> simp [Fn.add, Fn.eval]
  · cases f <;> cases g <;> simp [Fn.sub, Fn.eval, sub_eq_add_neg]
  · cases f <;> simp [Fn.neg, Fn.eval]
    ring

/-- Vector valued functions whose parts have the same number of components. -/
inductive Valid : VFn K → Prop
  | comp (cs : List (Fn K)) : Valid (.comp cs)
  | sum {f1 f2 : VFn K} (a b : K) : Valid f1 → Valid f2 → f1.rows = f2.rows → Valid (.sum f1 a f2 b)
  | mul {f : VFn K} (a : K) (g : Option (Fn K)) : Valid f → Valid (.mul f a g)

theorem length_eval {f : VFn K} (h : Valid f) (x : Nat → K) : (f.eval x).length = f.rows := by
  induction h with
  | comp cs => simp [VFn.eval, VFn.rows]
  | sum a b _ _ h ih1 ih2 => simp [VFn.eval, VFn.rows, ih1, ih2, h]
  | mul a g _ ih => simp [VFn.eval, VFn.rows, ih]

/-- The vector valued function has no factor that is a function. -/
def Plain : VFn K → Prop
  | .mul _ _ (some _) => False
  | _ => True

theorem zip_map_left (l m : List K) (a b c d : K) (h : a * c = d) :
    List.zipWith (fun u v => a * u + b * v) (l.map fun t => t * c) m = List.zipWith (fun u v => d * u + b * v) l m := by
  subst h
  induction l generalizing m with
  | nil => simp
  | cons u l ih =>
    cases m with
    | nil => simp
    | cons v m =>
      simp only [List.map_cons, List.zipWith_cons_cons, ih]
      congr 1
      ring

theorem zip_map_right (l m : List K) (a b c d : K) (h : b * c = d) :
    List.zipWith (fun u v => a * u + b * v) l (m.map fun t => t * c) = List.zipWith (fun u v => a * u + d * v) l m := by
  subst h
  induction l generalizing m with
  | nil => simp
  | cons u l ih =>
    cases m with
    | nil => simp
    | cons v m =>
      simp only [List.map_cons, List.zipWith_cons_cons, ih]
      congr 1
      ring

/-- The function without its numerical factor. -/
def base : VFn K → VFn K
  | .mul f _ _ => f
  | f => f

/-- The numerical factor. -/
def factor : VFn K → K
  | .mul _ a _ => a
  | _ => 1

omit [CommRing K] in
theorem rows_base (f : VFn K) : (base f).rows = f.rows := by
  cases f <;> rfl

theorem eval_base (f : VFn K) (hf : Plain f) (x : Nat → K) : f.eval x = ((base f).eval x).map fun t => t * factor f := by
  match f, hf with
  | .comp cs, _ => simp [base, factor]
  | .sum f1 a f2 b, _ => simp [base, factor]
  | .mul f a none, _ => simp [base, factor, VFn.eval]

/-- Factors are pulled out of the operands. -/
theorem combine (f g : VFn K) (hf : Plain f) (hg : Plain g) (c : K) (x : Nat → K) :
    List.zipWith (fun u v => factor f * u + c * factor g * v) ((base f).eval x) ((base g).eval x) =
      List.zipWith (fun u v => 1 * u + c * v) (f.eval x) (g.eval x) := by
  rw [eval_base f hf, eval_base g hg, zip_map_left _ _ 1 c _ _ (one_mul _), zip_map_right _ _ _ c _ _ rfl]

/-- Sums and differences of vector valued functions are computed componentwise, unless an operand is the product with a
function. -/
theorem vector_partial (f g : VFn K) (hf : Plain f) (hg : Plain g) (h : f.rows = g.rows) (x : Nat → K) :
    (∃ s, f.add g = some s ∧ s.rows = f.rows ∧ s.eval x = List.zipWith (· + ·) (f.eval x) (g.eval x)) ∧
      ∃ s, f.sub g = some s ∧ s.rows = f.rows ∧ s.eval x = List.zipWith (· - ·) (f.eval x) (g.eval x) := by
  have hr : (base f).rows = (base g).rows := by rw [rows_base, rows_base, h]
  constructor
  · refine ⟨.sum (base f) (factor f) (base g) (factor g), ?_, rows_base f, ?_⟩
    · cases f <;> cases g <;> simp only [base] at hr <;> simp [VFn.add, VFn.mkSum, base, factor, hr]
    · have := combine f g hf hg 1 x
      simp only [one_mul] at this
      simpa only [VFn.eval] using this
  · refine ⟨.sum (base f) (factor f) (base g) (-factor g), ?_, rows_base f, ?_⟩
    · cases f <;> cases g <;> simp only [base] at hr <;> simp [VFn.sub, VFn.mkSum, base, factor, hr]
    · have := combine f g hf hg (-1) x
      simp only [one_mul, neg_one_mul, ← sub_eq_add_neg] at this
      simpa only [VFn.eval] using this

/-- Products with numbers and functions are computed componentwise. -/
theorem vector_scale (f : VFn K) (c : K) (g : Fn K) (x : Nat → K) :
    (f.scale c).eval x = (f.eval x).map (c * ·) ∧ (f.times g).eval x = (f.eval x).map (g.eval x * ·) := by
  constructor <;> simp [VFn.scale, VFn.times, VFn.eval, mul_comm]

/-- Operands of different length are rejected. -/
theorem vector_rows (f g : VFn K) (h : f.rows ≠ g.rows) : f.add g = none ∧ f.sub g = none := by
  cases f <;> cases g <;> simp_all [VFn.add, VFn.sub, VFn.mkSum, VFn.rows]

omit [CommRing K] in
/-- The value at an index after the inner loop. -/
theorem fold_range' (F : (Nat → Nat → K) → Nat → Nat → Nat → K) (P : (Nat → Nat → K) → Nat → Prop) (i n : Nat)
    (vals : Nat → Nat → K) (h0 : P vals i) (hs : ∀ v j, i ≤ j → j < i + n → P v j → P (F v j) (j + 1)) :
    P ((List.range' i n).foldl F vals) (i + n) := by
  induction n with
  | zero => simpa using h0
  | succ n ih =>
    rw [List.range'_concat, List.foldl_append]
    simp only [List.foldl_cons, List.foldl_nil, one_mul]
    exact hs _ _ (by omega) (by omega) (ih fun v j h1 h2 h3 => hs v j h1 (by omega) h3)

/-- `matrixFunction`: without the flag all entries are the components, with the flag (for square matrices) the matrix is the
symmetric one of the components above the diagonal. -/
theorem matrix_value (n m : Nat) (components : Nat → Nat → Fn K) (x : Nat → K) (vals : Nat → Nat → K) (i j : Nat)
    (hi : i < n) (hj : j < m) :
    matrixEval n m false components x vals i j = (components i j).eval x ∧
      (n = m → matrixEval n m true components x vals i j = (components (min i j) (max i j)).eval x ∧
        matrixEval n m true components x vals i j = matrixEval n m true components x vals j i) := by
  have main : ∀ i < n, ∀ j < m, n = m → matrixEval n m true components x vals i j =
      (components (min i j) (max i j)).eval x := by
    intro i hi j hj hnm
    subst hnm
    have := fold_range' (K := K) (fun vals i => (List.range' i (n - i)).foldl (fun vals j =>
        set2 (set2 vals j i ((components i j).eval x)) i j ((components i j).eval x)) vals)
      (fun v k => ∀ a b, a < n → b < n → min a b < k → v a b = (components (min a b) (max a b)).eval x) 0 n vals
      (by intro a b _ _ h; omega) ?_
    · rw [List.range_eq_range'.symm] at this
      simp only [matrixEval, if_true]
      exact this i j hi hj (by omega)
    · intro v k _ hk hv
      have := fold_range' (K := K) (fun vals j =>
          set2 (set2 vals j k ((components k j).eval x)) k j ((components k j).eval x))
        (fun w l => ∀ a b, a < n → b < n → (min a b < k ∨ (min a b = k ∧ max a b < l)) →
          w a b = (components (min a b) (max a b)).eval x) k (n - k) v ?_ ?_
      · intro a b ha hb h
        exact this a b ha hb (by omega)
      · intro a b ha hb h
        exact hv a b ha hb (by omega)
      · intro w l h1 h2 hw a b ha hb h
        simp only [set2]
        split
        · rename_i h'
          rw [h'.1, h'.2, min_eq_left h1, max_eq_right h1]
        split
        · rename_i h'
          rw [h'.1, h'.2, min_eq_right h1, max_eq_left h1]
        · exact hw a b ha hb (by omega)
  refine ⟨?_, fun hnm => ⟨main i hi j hj hnm, ?_⟩⟩
  · have := fold_range' (K := K) (fun vals i => (List.range m).foldl (fun vals j =>
        set2 vals i j ((components i j).eval x)) vals)
      (fun v k => ∀ a b, a < k → b < m → v a b = (components a b).eval x) 0 n vals (by intro a b h; omega) ?_
    · rw [List.range_eq_range'.symm] at this
      simp only [matrixEval, Bool.false_eq_true, if_false]
      exact this i j (by omega) hj
    · intro v k _ hk hv
      have := fold_range' (K := K) (fun vals j => set2 vals k j ((components k j).eval x))
        (fun w l => ∀ a b, (a < k ∧ b < m) ∨ (a = k ∧ b < l) → w a b = (components a b).eval x) 0 m v
        (by intro a b h; exact hv a b (by omega) (by omega)) ?_
      · rw [List.range_eq_range'.symm] at this
        intro a b ha hb
        exact this a b (by omega)
      · intro w l h1 h2 hw a b h
        simp only [set2]
        split
        · rename_i h'
          rw [h'.1, h'.2]
        · exact hw a b (by omega)
  · rw [main i hi j hj hnm, main j (by omega) i (by omega) hnm, min_comm, max_comm]

omit [CommRing K] in
/-- Two runs of a loop keep a relation. -/
theorem foldl_rel {S T : Type} (R : S → T → Prop) (F : S → Nat → S) (G : T → Nat → T) (l : List Nat) (u : S) (v : T) (h : R u v)
    (hs : ∀ u v, ∀ i ∈ l, R u v → R (F u i) (G v i)) : R (l.foldl F u) (l.foldl G v) := by
  induction l generalizing u v with
  | nil => exact h
  | cons i l ih => exact ih _ _ (hs u v i (by simp) h) fun u v j hj => hs u v j (by simp [hj])

/-- `evalPtr` stores the same matrix row by row. -/
theorem matrix_ptr (n m : Nat) (symmetric : Bool) (hs : symmetric = true → n = m) (components : Nat → Nat → Fn K) (x : Nat → K)
    (vals : Nat → Nat → K) (flat : Nat → K) (h : ∀ i < n, ∀ j < m, flat (i * m + j) = vals i j) (i j : Nat) (hi : i < n)
    (hj : j < m) : matrixEvalPtr n m symmetric components x flat (i * m + j) = matrixEval n m symmetric components x vals i j := by
  have index : ∀ a b c d : Nat, b < m → d < m → (a * m + b = c * m + d ↔ a = c ∧ b = d) := by
    intro a b c d hb hd
    constructor
    · intro e
      have h1 : a = c := by
        have e1 : (a * m + b) / m = a := by
          rw [Nat.mul_comm, Nat.mul_add_div (by omega), Nat.div_eq_of_lt hb, Nat.add_zero]
        have e2 : (c * m + d) / m = c := by
          rw [Nat.mul_comm, Nat.mul_add_div (by omega), Nat.div_eq_of_lt hd, Nat.add_zero]
        rw [← e1, ← e2, e]
      subst h1
      exact ⟨rfl, by omega⟩
    · rintro ⟨rfl, rfl⟩
      rfl
  let R : (Nat → K) → (Nat → Nat → K) → Prop := fun u v => ∀ i < n, ∀ j < m, u (i * m + j) = v i j
  have step : ∀ (u : Nat → K) (v : Nat → Nat → K) (a b : Nat) (t : K), R u v → a < n → b < m →
      R (fun q => if q = a * m + b then t else u q) (set2 v a b t) := by
    intro u v a b t huv ha hb i hi j hj
    simp only [set2, index i j a b hj hb]
    split
    · rfl
    · exact huv i hi j hj
  have key : R (matrixEvalPtr n m symmetric components x flat) (matrixEval n m symmetric components x vals) := by
    unfold matrixEvalPtr matrixEval
    cases symmetric with
    | true =>
      have hnm := hs rfl
      subst hnm
      simp only [if_true]
      refine foldl_rel R _ _ _ _ _ h fun u v i hi huv => foldl_rel R _ _ _ _ _ huv fun u v j hj huv => ?_
      simp only [List.mem_range, List.mem_range'_1] at hi hj
      have hj' : j < n := by omega
      have h0 := step u v i j ((components i j).eval x) huv hi hj'
      have h1 := step (fun q => if q = i * n + j then (components i j).eval x else u q)
        (set2 v i j ((components i j).eval x)) j i ((components i j).eval x) h0 hj' hi
      intro a ha b hb
      rw [h1 a ha b hb]
      simp only [set2]
      split <;> split <;> rfl
    | false =>
      simp only [Bool.false_eq_true, if_false]
      refine foldl_rel R _ _ _ _ _ h fun u v i hi huv => foldl_rel R _ _ _ _ _ huv fun u v j hj huv => ?_
      simp only [List.mem_range] at hi hj
      exact step u v i j _ huv hi hj
  exact key i hi j hj

theorem foldl_affine (w x : Nat → K) (c : K) (dim : Nat) :
    affine dim w c x = ((List.range dim).map fun i => w i * x i).sum + c := by
  unfold affine
  induction dim with
  | zero => simp
  | succ n ih =>
    rw [List.range_succ, List.foldl_append, ih, List.map_append, List.sum_append]
    simp only [List.foldl_cons, List.foldl_nil, List.map_cons, List.map_nil, List.sum_cons, List.sum_nil]
    ring

/-- `affineFunction` is the linear function plus the constant, `sqrtAffineFunction` its root. -/
theorem affine_value (sqrt : K → K) (dim : Nat) (w x : Nat → K) (c : K) :
    affine dim w c x = ((List.range dim).map fun i => w i * x i).sum + c ∧
      sqrtAffine sqrt dim w c x = sqrt (((List.range dim).map fun i => w i * x i).sum + c) := by
  rw [sqrtAffine, foldl_affine]
  exact ⟨rfl, rfl⟩

/-- A composition of shifts and scalings is a shift and scaling. -/
theorem shiftScale_comp (f : (Nat → K) → K) (a b c d : Nat → K) (x : Nat → K) :
    shiftScale (shiftScale f a b) c d x = shiftScale f (fun i => b i * c i + a i) (fun i => b i * d i) x := by
  unfold shiftScale
  congr 1
  funext i
  ring

end Ring

section Order

variable {K : Type} [Field K] [LinearOrder K] [IsStrictOrderedRing K]

omit [LinearOrder K] [IsStrictOrderedRing K] in
theorem foldl_sum (dim : Nat) (g : Nat → K) : (List.range dim).foldl (fun r i => r + g i) 0 = ((List.range dim).map g).sum := by
  rw [List.sum_eq_foldl, List.foldl_map]

omit [IsStrictOrderedRing K] in
/-- Equal radial indicators (in the sense of `==`) are equal functions. -/
theorem radial_eq (s o : RadialIndicator K) (dim : Nat) (hs : ∀ c, s.center = some c → dim ≤ c.length) (h : s.eq o = true)
    (x : Nat → K) : s.eval dim x = o.eval dim x := by
  unfold RadialIndicator.eq at h
  by_cases h1 : s.radius = o.radius
  swap
  · simp [h1] at h
  by_cases h2 : s.center.isNone = o.center.isNone
  swap
  · simp [h1, h2] at h
  simp only [h1, h2, ne_eq, not_true_eq_false, if_false, List.all_eq_true, List.mem_range, decide_eq_true_eq] at h
  unfold RadialIndicator.eval
  rw [h1]
  cases hc : s.center with
  | none =>
    rw [hc] at h2
    cases ho : o.center with
    | none => rfl
    | some c => simp [ho] at h2
  | some c =>
    rw [hc] at h2 h
    cases ho : o.center with
    | none => simp [ho] at h2
    | some c' =>
      rw [ho] at h
      simp only [Option.getD_some] at h
      have : (List.range dim).foldl (fun r i => r + (x i - c.getD i 0) * (x i - c.getD i 0)) 0 =
          (List.range dim).foldl (fun r i => r + (x i - c'.getD i 0) * (x i - c'.getD i 0)) 0 := by
        rw [foldl_sum dim fun i => (x i - c.getD i 0) * (x i - c.getD i 0),
          foldl_sum dim fun i => (x i - c'.getD i 0) * (x i - c'.getD i 0)]
        congr 1
        refine List.map_congr_left fun i hi => ?_
        rw [h i (by have := hs c hc; simp only [List.mem_range] at hi; omega)]
      simp only [this]

omit [IsStrictOrderedRing K] in
/-- The indicator of a ball is one at the points of the closed ball, else zero. -/
theorem radial_value (radius : K) (c : List K) (dim : Nat) (x : Nat → K) :
    (mkRadial radius (some c)).eval dim x =
        (if ((List.range dim).map fun i => (x i - c.getD i 0) ^ 2).sum ≤ radius ^ 2 then 1 else 0) ∧
      (mkRadial radius none).eval dim x =
        if ((List.range dim).map fun i => x i ^ 2).sum ≤ radius ^ 2 then 1 else 0 := by
  constructor
  · have := foldl_sum dim fun i => (x i - c.getD i 0) * (x i - c.getD i 0)
    simp only [mkRadial, RadialIndicator.eval, this, sq]
  · have := foldl_sum dim fun i => x i * x i
    simp only [mkRadial, RadialIndicator.eval, this, sq]

omit [IsStrictOrderedRing K] in
/-- The indicator of a box is one at its points, else zero; equal indicators (in the sense of `==`) are equal functions. -/
theorem square_value (a b a' b' : Nat → K) (dim n : Nat) (hn : dim ≤ n) (x : Nat → K) :
    squareEval a b dim x = (if ∀ i < dim, a i ≤ x i ∧ x i ≤ b i then 1 else 0) ∧
      (squareEq n a b a' b' = true → squareEval a b dim x = squareEval a' b' dim x) := by
  have e : ∀ a b : Nat → K, squareEval a b dim x = if ∀ i < dim, a i ≤ x i ∧ x i ≤ b i then 1 else 0 := by
    intro a b
    unfold squareEval
    by_cases h : ∀ i < dim, a i ≤ x i ∧ x i ≤ b i
    · rw [if_pos h, if_neg]
      simp only [List.any_eq_true, List.mem_range, Bool.or_eq_true, decide_eq_true_eq, not_exists, not_and, not_or, not_lt]
      exact h
    · rw [if_neg h, if_pos]
      simp only [List.any_eq_true, List.mem_range, Bool.or_eq_true, decide_eq_true_eq]
      push Not at h
      obtain ⟨i, hi, h⟩ := h
      refine ⟨i, hi, ?_⟩
      by_cases h2 : x i < a i
      · exact Or.inl h2
      · exact Or.inr (h (not_lt.mp h2))
  refine ⟨e a b, fun h => ?_⟩
  simp only [squareEq, List.all_eq_true, List.mem_range, Bool.and_eq_true, decide_eq_true_eq] at h
  rw [e, e]
  congr 1
  rw [eq_iff_iff]
  constructor
  · intro h' i hi
    obtain ⟨h1, h2⟩ := h i (by omega)
    rw [← h1, ← h2]
    exact h' i hi
  · intro h' i hi
    obtain ⟨h1, h2⟩ := h i (by omega)
    rw [h1, h2]
    exact h' i hi

omit [Field K] [IsStrictOrderedRing K] in
/-- A projected function lies between its bounds, and agrees with the function where that does. -/
theorem proj_value (f lower upper : (Nat → K) → K) (x : Nat → K) (h : lower x ≤ upper x) :
    lower x ≤ proj f lower upper x ∧ proj f lower upper x ≤ upper x ∧
      (lower x ≤ f x → f x ≤ upper x → proj f lower upper x = f x) := by
  refine ⟨le_max_left _ _, max_le h (min_le_left _ _), fun h1 h2 => ?_⟩
  rw [proj, min_eq_right h2, max_eq_right h1]

omit [IsStrictOrderedRing K] in
/-- The functor of an indicator gives the product of the function and the characteristic function. -/
theorem indicator_value (f indicator : (Nat → K) → K) (threshold : K) (x : Nat → K) :
    indicatorFunctor f indicator threshold x = f x * if threshold < indicator x then 1 else 0 := by
  unfold indicatorFunctor
  split <;> simp

theorem fmod_add [FloorRing K] (a b : K) (ha : 0 ≤ a) (hb : 0 < b) (n : Nat) : fmod (a + n * b) b = fmod a b := by
  unfold fmod
  have h1 : 0 ≤ a / b := div_nonneg ha hb.le
  have h2 : (a + n * b) / b = a / b + (n : Int) := by
    field_simp
    push_cast
    ring
  have h3 : 0 ≤ a / b + ((n : Int) : K) := by positivity
  rw [h2, if_pos h3, if_pos h1, Int.floor_add_intCast]
  push_cast
  ring

/-- `periodicityFunctor` is periodic on the points with nonnegative coordinates. -/
theorem periodic_partial [FloorRing K] (f : (Nat → K) → K) (period x : Nat → K) (hp : ∀ i, 0 < period i) (hx : ∀ i, 0 ≤ x i)
    (n : Nat → Nat) : periodic f period (fun i => x i + n i * period i) = periodic f period x := by
  unfold periodic
  congr 1
  funext i
  exact fmod_add _ _ (hx i) (hp i) _

end Order

/-! ### Cases -/

/-- A coordinate function. -/
def coord (i : Nat) : Fn ℚ := .leaf fun x => x i

example : (((coord 0).scale 2).add ((coord 1).scale 3)).eval (fun i => (i : ℚ) + 1) = 8 := by decide +kernel

example : ∃ s, (VFn.comp [coord 0, coord 1]).sub ((VFn.comp [coord 1, coord 0]).scale 2) = some s ∧
    s.eval (fun i => (i : ℚ) + 1) = [-3, 0] := ⟨_, rfl, by decide +kernel⟩

/-! ### Defects -/

/-- The sum with a product of a function and a vector valued function forgets the function. -/
theorem vector_fails : ∃ (f : VFn ℚ) (g : Fn ℚ) (h s : VFn ℚ) (x : Nat → ℚ), (f.times g).add h = some s ∧
    s.eval x ≠ List.zipWith (· + ·) ((f.times g).eval x) (h.eval x) :=
  ⟨.comp [.leaf fun _ => 1], .leaf fun _ => 2, .comp [.leaf fun _ => 0], _, fun _ => 0, rfl, by decide +kernel⟩

/-- Remainders of negative coordinates are negative, so that `periodicityFunctor` is not periodic at zero. -/
theorem periodic_fails : periodic (fun x => x 0) (fun _ => (1 : ℚ)) (fun _ => -1 / 4 + 1) ≠
    periodic (fun x => x 0) (fun _ => (1 : ℚ)) fun _ => -1 / 4 := by
  decide +kernel

/-- The function that is rebuilt from `sqrtAffineFunction.__reduce__` lacks the square root. -/
theorem reduce_fails (sqrt : ℚ → ℚ) (h : sqrt 4 = 2) : sqrtAffine sqrt 1 (fun _ => 1) 0 (fun _ => 4) = 2 ∧
    sqrtAffineReduced 1 (fun _ => 1) 0 (fun _ => (4 : ℚ)) = 4 := by
  have : affine 1 (fun _ => (1 : ℚ)) 0 (fun _ => 4) = 4 := by decide +kernel
  exact ⟨by rw [sqrtAffine, this, h], this⟩

/-- With the flag `symmetric` the components below the diagonal are ignored. -/
theorem matrix_fails : ∃ (c : Nat → Nat → Fn ℚ) (x : Nat → ℚ),
    matrixEval 2 2 true c x (fun _ _ => 0) 1 0 ≠ (c 1 0).eval x :=
  ⟨fun i _ => .leaf fun _ => (i : ℚ), fun _ => 0, by decide +kernel⟩

end PyNucleus.Props.C76
