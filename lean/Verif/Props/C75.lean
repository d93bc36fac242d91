import Mathlib.Tactic.Linarith
import Mathlib.Tactic.FieldSimp
import Mathlib.Tactic.Ring
import Mathlib.Data.List.MinMax
import Mathlib.Data.Rat.Defs
import Mathlib.Algebra.BigOperators.Ring.Finset
import Mathlib.Algebra.BigOperators.Group.Finset.Piecewise
import Mathlib.Algebra.Order.Ring.Rat
import Verif.Model.FractionalOrders

/-!
C75: fractional orders agree with what they declare: bounds, symmetry, derivatives, pickling.
-/

namespace PyNucleus.Props.C75

open FractionalOrders

variable {K : Type} [Field K] [LinearOrder K] [IsStrictOrderedRing K]

/-- The orders that the constructors of the module return for reasonable arguments: transition layers of positive width,
block indicators with values in the range of blocks. -/
inductive Built : Order K → Prop
  | const (s : K) : Built (constFractionalOrder s)
  | variableConst (s : K) : Built (variableConstFractionalOrder s)
  | constantNonSym {s : K} {o : Order K} (h : constantNonSym s = some o) : Built o
  | smoothed {sl sr r interface : K} {o : Order K} (hr : 0 < r) (h : smoothedLeftRight sl sr r interface = some o) : Built o
  | linear {sl sr r interface : K} {o : Order K} (hr : 0 < r) (h : linearLeftRight sl sr r interface = some o) : Built o
  | leftRight (sll srr : K) (slr srl : Option K) (interface : K) : Built (leftRight sll srr slr srl interface)
  | innerOuter (dim : Nat) (sii soo r : K) (center : Nat → K) (sio soi : Option K) (junk : Nat → K) :
      Built (innerOuter dim sii soo r center sio soi junk)
  | islands (sii soo r r2 : K) (sio soi : Option K) : Built (islands sii soo r r2 sio soi)
  | layers {dim n : Nat} {b : Nat → K} {orders : Nat → Nat → K} {o : Order K} (h : layers dim n b orders = some o) : Built o
  | piecewise {dim n : Nat} {ind : (Nat → K) → Int} {sVals : Nat → Nat → Option K} {o : Order K}
      (hind : ∀ x, 0 ≤ ind x ∧ ind x < n) (h : piecewiseConstant dim ind n sVals = some o) : Built o

/-- Orders of blocks. -/
def IsPiecewise (o : Order K) : Prop := ∃ dim ind n a, o.data = .piecewise dim ind n a

/-! ### Helpers -/

theorem min4_le {a b c d v : K} (h : v = a ∨ v = b ∨ v = c ∨ v = d) : min4 a b c d ≤ v ∧ v ≤ max4 a b c d := by
  unfold min4 max4
  rcases h with rfl | rfl | rfl | rfl <;> constructor <;> simp

theorem mem_entries {n : Nat} {a : Nat → Nat → K} {v : K} : v ∈ entries n a ↔ ∃ i < n, ∃ j < n, a i j = v := by
  simp [entries]

omit [Field K] [IsStrictOrderedRing K] in
theorem min_le_of_mem {l : List K} {m v : K} (h : l.min? = some m) (hv : v ∈ l) : m ≤ v :=
  (List.min?_eq_some_iff.mp h).2 v hv

omit [Field K] [IsStrictOrderedRing K] in
theorem le_max_of_mem {l : List K} {m v : K} (h : l.max? = some m) (hv : v ∈ l) : v ≤ m :=
  (List.max?_eq_some_iff.mp h).2 v hv

omit [Field K] [IsStrictOrderedRing K] in
theorem le_foldl_max (l : List K) (a : K) : a ≤ l.foldl max a ∧ ∀ v ∈ l, v ≤ l.foldl max a := by
  induction l generalizing a with
  | nil => simp
  | cons b l ih =>
    obtain ⟨h1, h2⟩ := ih (max a b)
    simp only [List.foldl_cons, List.mem_cons, forall_eq_or_imp]
    exact ⟨(le_max_left _ _).trans h1, (le_max_right _ _).trans h1, h2⟩

theorem layerOf_lt {n : Nat} (hn : 0 < n) (b : Nat → K) (c : K) : layerOf n b c < n := by
  unfold layerOf
  split
  · exact hn
  split
  · omega
  cases h : (List.range n).find? fun i => decide (b i ≤ c ∧ c ≤ b (i + 1)) with
  | none => simpa using hn
  | some i => simpa using List.mem_of_find?_eq_some h

theorem cubic_mem {x interface r : K} (hr : 0 < r) (h1 : ¬ x < interface - r) (h2 : ¬ interface + r < x) :
    0 ≤ cubic x interface ((1 / 2) / r) ∧ cubic x interface ((1 / 2) / r) ≤ 1 := by
  obtain ⟨t, ht⟩ : ∃ t, t = (x - interface) * ((1 / 2) / r) + 1 / 2 := ⟨_, rfl⟩
  have e : x - interface = (t - 1 / 2) * 2 * r := by
    rw [ht]
    field_simp
    ring
  have h0 : 0 ≤ t := by
    by_contra h
    push Not at h
    nlinarith
  have h1' : t ≤ 1 := by
    by_contra h
    push Not at h
    nlinarith
  have : cubic x interface ((1 / 2) / r) = 3 * t ^ 2 - 2 * t ^ 3 := by
    rw [cubic, ← ht]
  rw [this]
  constructor
  · have : 3 * t ^ 2 - 2 * t ^ 3 = t ^ 2 * (3 - 2 * t) := by ring
    rw [this]
    exact mul_nonneg (sq_nonneg t) (by linarith)
  · have : 1 - (3 * t ^ 2 - 2 * t ^ 3) = (1 - t) ^ 2 * (1 + 2 * t) := by ring
    have h3 : 0 ≤ (1 - t) ^ 2 * (1 + 2 * t) := mul_nonneg (sq_nonneg _) (by linarith)
    linarith

/-- A convex combination lies between its ends. -/
theorem between {a b t : K} (h0 : 0 ≤ t) (h1 : t ≤ 1) : min a b ≤ a + (b - a) * t ∧ a + (b - a) * t ≤ max a b := by
  rcases le_total a b with h | h
  · rw [min_eq_left h, max_eq_right h]
    constructor <;> nlinarith
  · rw [min_eq_right h, max_eq_left h]
    constructor <;> nlinarith

theorem singleVariable_eq {f : SFun K} {a b : K} {n : Nat} {o : Order K} (h : singleVariable f a b n = some o) :
    1 ≤ n ∧ o = ⟨a, b, false, n, .single f⟩ := by
  unfold singleVariable at h
  split at h
  · rename_i hn
    exact ⟨hn, (Option.some.inj h).symm⟩
  · exact absurd h (by simp)

theorem piecewiseConstant_eq {dim n : Nat} {ind : (Nat → K) → Int} {sVals : Nat → Nat → Option K} {o : Order K}
    (h : piecewiseConstant dim ind n sVals = some o) :
    ∃ a m, fillBlocks n sVals = some a ∧ (entries n a).min? = some o.min ∧ (entries n a).max? = some o.max ∧
      (entries n fun i j => |a i j - a j i|).max? = some m ∧ o.symmetric = decide (m < 1 / 10 ^ 10) ∧ o.numParameters = 1 ∧
      o.data = .piecewise dim ind n a := by
  unfold piecewiseConstant at h
  obtain ⟨a, h1, h⟩ := Option.bind_eq_some_iff.mp h
  obtain ⟨smin, h2, h⟩ := Option.bind_eq_some_iff.mp h
  obtain ⟨smax, h3, h⟩ := Option.bind_eq_some_iff.mp h
  obtain ⟨m, h4, h⟩ := Option.map_eq_some_iff.mp h
  subst h
  exact ⟨a, m, h1, h2, h3, h4, rfl, rfl, rfl⟩

theorem layers_eq {dim n : Nat} {b : Nat → K} {orders : Nat → Nat → K} {o : Order K} (h : layers dim n b orders = some o) :
    0 < n ∧ (entries n orders).min? = some o.min ∧ o.max = (entries n orders).foldl max 0 ∧
      (o.symmetric = true ↔ ∀ i < n, ∀ j < n, orders i j = orders j i) ∧ o.data = .layers dim n b orders := by
  unfold layers at h
  obtain ⟨smin, h1, h⟩ := Option.map_eq_some_iff.mp h
  subst h
  refine ⟨?_, h1, rfl, ?_, rfl⟩
  · rcases Nat.eq_zero_or_pos n with rfl | h
    · simp [entries] at h1
    · exact h
  · simp

/-! ### Properties -/

/-- Every order has a value at every pair of points, and the members `min` and `max` bound it. -/
theorem range {o : Order K} (h : Built o) (x y : Nat → K) : ∃ v, o.eval x y = some v ∧ o.min ≤ v ∧ v ≤ o.max := by
  cases h with
  | const s => exact ⟨s, rfl, le_refl _, le_refl _⟩
  | variableConst s => exact ⟨s, rfl, le_refl _, le_refl _⟩
  | constantNonSym h =>
    obtain ⟨-, rfl⟩ := singleVariable_eq h
    exact ⟨_, rfl, le_refl _, le_refl _⟩
  | @smoothed sl sr r interface o hr h =>
    obtain ⟨-, rfl⟩ := singleVariable_eq h
    simp only [Order.eval, Data.evalPtr, mkSmoothStep, SFun.eval]
    by_cases h1 : x 0 < interface - r
    · exact ⟨sl, by simp [h1], min_le_left _ _, le_max_left _ _⟩
    by_cases h2 : interface + r < x 0
    · exact ⟨sr, by simp [h1, h2], min_le_right _ _, le_max_right _ _⟩
    rw [if_neg h1, if_neg h2]
    obtain ⟨h3, h4⟩ := cubic_mem hr h1 h2
    exact ⟨_, rfl, (between h3 h4).1, (between h3 h4).2⟩
  | @linear sl sr r interface o hr h =>
    obtain ⟨-, rfl⟩ := singleVariable_eq h
    simp only [Order.eval, Data.evalPtr, mkLinearStep, SFun.eval]
    by_cases h1 : x 0 < interface - r
    · exact ⟨sl, by simp [h1], min_le_left _ _, le_max_left _ _⟩
    by_cases h2 : interface + r < x 0
    · exact ⟨sr, by simp [h1, h2], min_le_right _ _, le_max_right _ _⟩
    rw [if_neg h1, if_neg h2]
    push Not at h1 h2
    have e : sl + 1 / 2 * (sr - sl) / r * (x 0 - interface + r) = sl + (sr - sl) * ((x 0 - interface + r) / (2 * r)) := by
      field_simp
    have h3 : 0 ≤ (x 0 - interface + r) / (2 * r) := div_nonneg (by linarith) (by linarith)
    have h4 : (x 0 - interface + r) / (2 * r) ≤ 1 := by
      rw [div_le_one (by linarith)]
      linarith
    exact ⟨_, rfl, e ▸ (between h3 h4).1, e ▸ (between h3 h4).2⟩
  | leftRight sll srr slr srl interface =>
    refine ⟨_, rfl, min4_le ?_⟩
    split <;> split <;> simp
  | innerOuter dim sii soo r center sio soi junk =>
    simp only [Order.eval, FractionalOrders.innerOuter, Data.evalPtr]
    generalize radius2 dim _ x = a
    generalize radius2 dim _ y = b
    by_cases h1 : a < r * r <;> by_cases h2 : b < r * r
    · exact ⟨sii, by simp [h1, h2], min4_le (by simp)⟩
    · exact ⟨orMean sii soo sio, by simp [h1, h2, not_lt.mp h2], min4_le (by simp)⟩
    · exact ⟨orMean sii soo soi, by simp [h1, h2, not_lt.mp h1], min4_le (by simp)⟩
    · exact ⟨soo, by simp [h1, h2, not_lt.mp h1, not_lt.mp h2], min4_le (by simp)⟩
  | islands sii soo r r2 sio soi =>
    refine ⟨_, rfl, min4_le ?_⟩
    split <;> split <;> simp
  | layers h =>
    obtain ⟨hn, h1, h2, -, h3⟩ := layers_eq h
    simp only [Order.eval, h3, Data.evalPtr]
    refine ⟨_, rfl, min_le_of_mem h1 (mem_entries.mpr ⟨_, layerOf_lt hn _ _, _, layerOf_lt hn _ _, rfl⟩), ?_⟩
    rw [h2]
    exact (le_foldl_max _ _).2 _ (mem_entries.mpr ⟨_, layerOf_lt hn _ _, _, layerOf_lt hn _ _, rfl⟩)
  | @piecewise dim n ind sVals o hind h =>
    obtain ⟨a, m, -, h1, h2, -, -, -, h3⟩ := piecewiseConstant_eq h
    have hx := hind x
    have hy := hind y
    have hm : a (ind x).toNat (ind y).toNat ∈ entries n a := mem_entries.mpr ⟨_, by omega, _, by omega, rfl⟩
    refine ⟨a (ind x).toNat (ind y).toNat, ?_, min_le_of_mem h1 hm, le_max_of_mem h2 hm⟩
    simp only [Order.eval, h3, Data.evalPtr]
    rw [if_pos ⟨hx.1, hx.2, hy.1, hy.2⟩]

/-- The flag `symmetric` is right for all orders but those of blocks. -/
theorem symmetric {o : Order K} (h : Built o) (hp : ¬ IsPiecewise o) (hs : o.symmetric = true) (x y : Nat → K) :
    o.eval x y = o.eval y x := by
  cases h with
  | const s => rfl
  | variableConst s => rfl
  | constantNonSym h =>
    obtain ⟨-, rfl⟩ := singleVariable_eq h
    simp at hs
  | smoothed hr h =>
    obtain ⟨-, rfl⟩ := singleVariable_eq h
    simp at hs
  | linear hr h =>
    obtain ⟨-, rfl⟩ := singleVariable_eq h
    simp at hs
  | leftRight sll srr slr srl interface =>
    have e : orMean sll srr slr = orMean sll srr srl := by simpa [FractionalOrders.leftRight] using hs
    simp only [Order.eval, FractionalOrders.leftRight, Data.evalPtr, e]
    split <;> split <;> rfl
  | innerOuter dim sii soo r center sio soi junk =>
    have e : orMean sii soo sio = orMean sii soo soi := by simpa [FractionalOrders.innerOuter] using hs
    simp only [Order.eval, FractionalOrders.innerOuter, Data.evalPtr, e]
    generalize radius2 dim _ x = a
    generalize radius2 dim _ y = b
    by_cases h1 : a < r * r <;> by_cases h2 : b < r * r <;> simp [h1, h2, not_le.mpr, not_lt.mp]
  | islands sii soo r r2 sio soi =>
    have e : orMean sii soo sio = orMean sii soo soi := by simpa [FractionalOrders.islands] using hs
    simp only [Order.eval, FractionalOrders.islands, Data.evalPtr, e]
    split <;> split <;> rfl
  | layers h =>
    obtain ⟨hn, -, -, h2, h3⟩ := layers_eq h
    simp only [Order.eval, h3, Data.evalPtr]
    rw [h2.mp hs _ (layerOf_lt hn _ _) _ (layerOf_lt hn _ _)]
  | piecewise hind h =>
    obtain ⟨a, m, -, -, -, -, -, -, h3⟩ := piecewiseConstant_eq h
    exact absurd ⟨_, _, _, _, h3⟩ hp

/-- For orders of blocks the flag means that the values differ by less than 1e-10. -/
theorem symmetric_partial {dim n : Nat} {ind : (Nat → K) → Int} {sVals : Nat → Nat → Option K} {o : Order K}
    (hind : ∀ x, 0 ≤ ind x ∧ ind x < n) (h : piecewiseConstant dim ind n sVals = some o) (hs : o.symmetric = true)
    (x y : Nat → K) : ∃ v w, o.eval x y = some v ∧ o.eval y x = some w ∧ |v - w| < 1 / 10 ^ 10 := by
  obtain ⟨a, m, -, -, -, h4, h5, -, h3⟩ := piecewiseConstant_eq h
  have hx := hind x
  have hy := hind y
  refine ⟨a (ind x).toNat (ind y).toNat, a (ind y).toNat (ind x).toNat, ?_, ?_, ?_⟩
  · simp only [Order.eval, h3, Data.evalPtr]
    rw [if_pos ⟨hx.1, hx.2, hy.1, hy.2⟩]
  · simp only [Order.eval, h3, Data.evalPtr]
    rw [if_pos ⟨hy.1, hy.2, hx.1, hx.2⟩]
  · have hm : |a (ind x).toNat (ind y).toNat - a (ind y).toNat (ind x).toNat| ∈ entries n fun i j => |a i j - a j i| :=
      mem_entries.mpr ⟨_, by omega, _, by omega, rfl⟩
    have h6 := le_max_of_mem h4 hm
    rw [h5] at hs
    exact h6.trans_lt (of_decide_eq_true hs)

/-- The values of `leftRightFractionalOrder`: first letter for the side of `x`, second one for the side of `y`; missing
values are means. -/
theorem leftRight_value (sll srr slr srl interface : K) (x y : Nat → K) :
    (x 0 < interface → y 0 < interface → (leftRight sll srr (some slr) (some srl) interface).eval x y = some sll) ∧
    (x 0 < interface → interface ≤ y 0 → (leftRight sll srr (some slr) (some srl) interface).eval x y = some slr) ∧
    (interface ≤ x 0 → y 0 < interface → (leftRight sll srr (some slr) (some srl) interface).eval x y = some srl) ∧
    (interface ≤ x 0 → interface ≤ y 0 → (leftRight sll srr (some slr) (some srl) interface).eval x y = some srr) ∧
    leftRight sll srr none none interface =
      leftRight sll srr (some ((sll + srr) / 2)) (some ((sll + srr) / 2)) interface ∧
    (leftRight sll srr none none interface).symmetric = true := by
  refine ⟨?_, ?_, ?_, ?_, ?_, ?_⟩
  · intro h1 h2
    simp [Order.eval, leftRight, Data.evalPtr, h1, h2]
  · intro h1 h2
    simp [Order.eval, leftRight, Data.evalPtr, h1, not_lt.mpr h2, orMean]
  · intro h1 h2
    simp [Order.eval, leftRight, Data.evalPtr, not_lt.mpr h1, h2, orMean]
  · intro h1 h2
    simp [Order.eval, leftRight, Data.evalPtr, not_lt.mpr h1, not_lt.mpr h2]
  · have : (1 / 2 : K) * (sll + srr) = (sll + srr) / 2 := by ring
    simp only [leftRight, orMean, this]
  · simp [leftRight, orMean]

/-- Distances to the centre decide in one dimension. -/
theorem innerOuter_value_partial (sii soo sio soi r : K) (hr : 0 ≤ r) (center junk : Nat → K) (x y : Nat → K) :
    (|x 0 - center 0| < r → |y 0 - center 0| < r →
      (innerOuter 1 sii soo r center (some sio) (some soi) junk).eval x y = some sii) ∧
    (|x 0 - center 0| < r → r ≤ |y 0 - center 0| →
      (innerOuter 1 sii soo r center (some sio) (some soi) junk).eval x y = some sio) ∧
    (r ≤ |x 0 - center 0| → |y 0 - center 0| < r →
      (innerOuter 1 sii soo r center (some sio) (some soi) junk).eval x y = some soi) ∧
    (r ≤ |x 0 - center 0| → r ≤ |y 0 - center 0| →
      (innerOuter 1 sii soo r center (some sio) (some soi) junk).eval x y = some soo) := by
  have e : ∀ z : Nat → K, radius2 1 (fun i => if i = 0 then center 0 else junk i) z < r * r ↔ |z 0 - center 0| < r := by
    intro z
    simp only [radius2, List.range_one, List.foldl_cons, List.foldl_nil, zero_add, if_true]
    rw [← sq, sq_lt_sq, abs_of_nonneg hr]
  have e' : ∀ z : Nat → K, r * r ≤ radius2 1 (fun i => if i = 0 then center 0 else junk i) z ↔ r ≤ |z 0 - center 0| := by
    intro z
    rw [← not_lt, e, not_lt]
  refine ⟨?_, ?_, ?_, ?_⟩ <;> intro h1 h2 <;>
    simp only [Order.eval, innerOuter, Data.evalPtr, e, e', orMean]
  · simp [h1, h2]
  · simp [h1, h2, not_lt.mpr h2]
  · simp [h1, h2, not_lt.mpr h1]
  · simp [h1, h2, not_lt.mpr h1, not_lt.mpr h2]

/-- The four islands are the points with `r ≤ |x_i| ≤ r2` for both coordinates. -/
theorem islands_value (sii soo sio soi r r2 : K) (x y : Nat → K) :
    let island := fun z : Nat → K => r ≤ |z 0| ∧ |z 0| ≤ r2 ∧ r ≤ |z 1| ∧ |z 1| ≤ r2
    let o := islands sii soo r r2 (some sio) (some soi)
    (island x → island y → o.eval x y = some sii) ∧ (island x → ¬ island y → o.eval x y = some sio) ∧
    (¬ island x → island y → o.eval x y = some soi) ∧ (¬ island x → ¬ island y → o.eval x y = some soo) := by
  intro island o
  have e : ∀ z : Nat → K, inIsland r r2 z = true ↔ island z := by
    intro z
    simp only [inIsland, List.range_succ, List.range_zero, List.nil_append, List.all_append, List.all_cons, List.all_nil,
      Bool.and_true, Bool.and_eq_true, decide_eq_true_eq, island, and_assoc]
  refine ⟨?_, ?_, ?_, ?_⟩ <;> intro h1 h2 <;>
    simp only [o, Order.eval, islands, Data.evalPtr, e, h1, h2, orMean, if_true, if_false]

theorem layer_mono {n : Nat} {b : Nat → K} (hb : ∀ i < n, b i < b (i + 1)) {i j : Nat} (hij : i ≤ j) (hj : j ≤ n) : b i ≤ b j := by
  induction j with
  | zero =>
    obtain rfl : i = 0 := by omega
    exact le_refl _
  | succ j ih =>
    rcases Nat.eq_or_lt_of_le hij with rfl | h
    · exact le_refl _
    · exact (ih (by omega) (by omega)).trans (hb j (by omega)).le

theorem layerOf_eq {n : Nat} {b : Nat → K} (hb : ∀ i < n, b i < b (i + 1)) {i : Nat} (hi : i < n) {c : K}
    (h1 : b i < c ∨ (i = 0 ∧ c ≤ b 0)) (h2 : c < b (i + 1) ∨ (i + 1 = n ∧ b n ≤ c)) : layerOf n b c = i := by
  unfold layerOf
  rcases h1 with h1 | ⟨rfl, h1⟩
  swap
  · rw [if_pos h1]
  have h0 : b 0 ≤ b i := layer_mono hb (Nat.zero_le _) hi.le
  rw [if_neg (not_le.mpr (h0.trans_lt h1))]
  rcases h2 with h2 | ⟨h2, h3⟩
  swap
  · rw [if_pos h3]
    omega
  have hn : b (i + 1) ≤ b n := layer_mono hb hi (le_refl _)
  rw [if_neg (not_le.mpr (h2.trans_le hn))]
  have : (List.range n).find? (fun i => decide (b i ≤ c ∧ c ≤ b (i + 1))) = some i := by
    rw [List.find?_eq_some_iff_getElem]
    refine ⟨by simp [h1.le, h2.le], i, by simpa using hi, by simp, ?_⟩
    intro j hj
    have : b (j + 1) ≤ b i := layer_mono hb (by omega) hi.le
    simp only [List.getElem_range, Bool.not_eq_true', decide_eq_false_iff_not, not_and, not_le]
    intro _
    exact this.trans_lt h1
  rw [this, Option.getD_some]

/-- The order of two layers is used for points with the last coordinate inside of these layers; the first and the last layer
are unbounded. -/
theorem layers_value {dim n : Nat} {b : Nat → K} {orders : Nat → Nat → K} {o : Order K} (h : layers dim n b orders = some o)
    (hb : ∀ i < n, b i < b (i + 1)) {i j : Nat} (hi : i < n) (hj : j < n) (x y : Nat → K)
    (hx1 : b i < x (dim - 1) ∨ (i = 0 ∧ x (dim - 1) ≤ b 0)) (hx2 : x (dim - 1) < b (i + 1) ∨ (i + 1 = n ∧ b n ≤ x (dim - 1)))
    (hy1 : b j < y (dim - 1) ∨ (j = 0 ∧ y (dim - 1) ≤ b 0)) (hy2 : y (dim - 1) < b (j + 1) ∨ (j + 1 = n ∧ b n ≤ y (dim - 1))) :
    o.eval x y = some (orders i j) := by
  obtain ⟨-, -, -, -, h3⟩ := layers_eq h
  simp only [Order.eval, h3, Data.evalPtr]
  rw [layerOf_eq hb hi hx1 hx2, layerOf_eq hb hj hy1 hy2]

/-- The values of the transitions: constant on both sides, and the mean at the interface. -/
theorem transition_value {sl sr r interface : K} (hr : 0 < r) {o o' : Order K} (h : smoothedLeftRight sl sr r interface = some o)
    (h' : linearLeftRight sl sr r interface = some o') (x y : Nat → K) :
    (x 0 ≤ interface - r → o.eval x y = some sl ∧ o'.eval x y = some sl) ∧
    (interface + r ≤ x 0 → o.eval x y = some sr ∧ o'.eval x y = some sr) ∧
    (x 0 = interface → o.eval x y = some ((sl + sr) / 2) ∧ o'.eval x y = some ((sl + sr) / 2)) := by
  obtain ⟨-, rfl⟩ := singleVariable_eq h
  obtain ⟨-, rfl⟩ := singleVariable_eq h'
  simp only [Order.eval, Data.evalPtr, mkSmoothStep, mkLinearStep, SFun.eval, cubic]
  refine ⟨?_, ?_, ?_⟩
  · intro hx
    rcases hx.lt_or_eq with hx | hx
    · simp [hx]
    · have h2 : ¬ interface + r < x 0 := by linarith
      rw [if_neg (by linarith), if_neg h2, if_neg (by linarith), if_neg h2, hx]
      constructor <;> congr 1 <;> field_simp <;> ring
  · intro hx
    have h1 : ¬ x 0 < interface - r := by linarith
    rcases hx.lt_or_eq with hx | hx
    · simp [h1, hx]
    · rw [if_neg h1, if_neg (by linarith), if_neg h1, if_neg (by linarith), ← hx]
      constructor <;> congr 1 <;> field_simp <;> ring
  · intro hx
    have h1 : ¬ x 0 < interface - r := by linarith
    have h2 : ¬ interface + r < x 0 := by linarith
    rw [if_neg h1, if_neg h2, if_neg h1, if_neg h2, hx]
    constructor <;> congr 1 <;> field_simp <;> ring

/-- `evalGrad` contains the derivatives with respect to the parameters: the orders are affine functions of them. -/
theorem gradient {sl sr r interface : K} (hr : r ≠ 0) (make : K → K → K → K → Option (Order K))
    (hm : make = smoothedLeftRight ∨ make = linearLeftRight) (x y : Nat → K) (a b : K) :
    ∃ o o' v g, make sl sr r interface = some o ∧ make (sl + a) (sr + b) r interface = some o' ∧ o.numParameters = 2 ∧
      o.eval x y = some v ∧ o.evalGrad x y = some g ∧ o'.eval x y = some (v + (a * g 0 + b * g 1)) := by
  by_cases h1 : x 0 < interface - r
  · rcases hm with rfl | rfl <;>
    · refine ⟨_, _, sl, _, rfl, rfl, rfl, ?_, rfl, ?_⟩ <;>
        simp [Order.eval, Data.evalPtr, SFun.eval, mkSmoothStep, mkLinearStep, h1]
  by_cases h2 : interface + r < x 0
  · rcases hm with rfl | rfl <;>
    · refine ⟨_, _, sr, _, rfl, rfl, rfl, ?_, rfl, ?_⟩ <;>
        simp [Order.eval, Data.evalPtr, SFun.eval, mkSmoothStep, mkLinearStep, h1, h2]
  rcases hm with rfl | rfl
  · refine ⟨_, _, sl + (sr - sl) * cubic (x 0) interface ((1 / 2) / r), _, rfl, rfl, rfl, ?_, rfl, ?_⟩ <;>
      simp only [Order.eval, Data.evalPtr, SFun.eval, mkSmoothStep, h1, h2, if_false, if_true, one_ne_zero]
    congr 1
    ring
  · refine ⟨_, _, sl + (1 / 2) * (sr - sl) / r * (x 0 - interface + r), _, rfl, rfl, rfl, ?_, rfl, ?_⟩ <;>
      simp only [Order.eval, Data.evalPtr, SFun.eval, mkLinearStep, h1, h2, if_false, if_true, one_ne_zero]
    congr 1
    field_simp
    ring

/-- A constant order has the derivative one with respect to its value. -/
theorem gradient_const (s t : K) (x y : Nat → K) :
    (∃ g, (constFractionalOrder s).evalGrad x y = some g ∧ (constFractionalOrder s).eval x y = some s ∧
      (constFractionalOrder (s + t)).eval x y = some (s + t * g 0)) ∧
    ∃ o o' g, constantNonSym s = some o ∧ constantNonSym (s + t) = some o' ∧ o.evalGrad x y = some g ∧
      o.eval x y = some s ∧ o'.eval x y = some (s + t * g 0) :=
  ⟨⟨_, rfl, rfl, by simp [constFractionalOrder, Order.eval, Data.evalPtr]⟩,
    ⟨_, _, _, rfl, rfl, rfl, rfl, by simp [Order.eval, Data.evalPtr, SFun.eval]⟩⟩

theorem lookup_affine (cell2dof : Nat → Int) (phi : Nat → K) (u w : Nat → K) (N : Nat) (dpe : Nat)
    (hN : ∀ k < dpe, cell2dof k < N) :
    (List.range dpe).foldl (fun val k => if 0 ≤ cell2dof k then val + phi k * (u (cell2dof k).toNat + w (cell2dof k).toNat)
      else val) 0 =
    (List.range dpe).foldl (fun val k => if 0 ≤ cell2dof k then val + phi k * u (cell2dof k).toNat else val) 0 +
      ∑ i ∈ Finset.range N, w i * (List.range dpe).foldl (fun (grad : Nat → K) k =>
        if 0 ≤ cell2dof k then fun i => if i = (cell2dof k).toNat then grad i + phi k else grad i else grad) (fun _ => 0) i := by
  induction dpe with
  | zero => simp
  | succ n ih =>
    rw [List.range_succ]
    simp only [List.foldl_append, List.foldl_cons, List.foldl_nil]
    have ih := ih fun k hk => hN k (by omega)
    by_cases h : 0 ≤ cell2dof n
    · simp only [h, if_true]
      rw [ih]
      generalize (List.range n).foldl (fun (grad : Nat → K) k =>
        if 0 ≤ cell2dof k then fun i => if i = (cell2dof k).toNat then grad i + phi k else grad i else grad) (fun _ => 0) = g
      generalize (List.range n).foldl (fun val k => if 0 ≤ cell2dof k then val + phi k * u (cell2dof k).toNat else val) 0 = v
      have hn := hN n (by omega)
      have e : ∀ i, w i * (if i = (cell2dof n).toNat then g i + phi n else g i) =
          w i * g i + if i = (cell2dof n).toNat then w i * phi n else 0 := by
        intro i
        split <;> ring
      simp only [e, Finset.sum_add_distrib]
      rw [Finset.sum_ite_eq' (Finset.range N), if_pos (Finset.mem_range.mpr (by omega))]
      ring
    · simp only [h, if_false]
      exact ih

/-- The derivatives of finite element orders with respect to the coefficients of the vector. -/
theorem gradient_fe (find : (Nat → K) → Option (Nat × (Nat → K))) (cell2dof : Nat → Nat → Int) (dpe num_dofs : Nat)
    (hd : 1 ≤ num_dofs) (hN : ∀ c, ∀ k < dpe, cell2dof c k < num_dofs) (u w : Nat → K) (smin smax : K) (x y : Nat → K)
    (hx : find x ≠ none) :
    ∃ o o' v g, feFractionalOrder find cell2dof dpe num_dofs u smin smax = some o ∧
      feFractionalOrder find cell2dof dpe num_dofs (fun i => u i + w i) smin smax = some o' ∧ o.numParameters = num_dofs ∧
      o.eval x y = some v ∧ o.evalGrad x y = some g ∧
      o'.eval x y = some (v + ∑ i ∈ Finset.range num_dofs, w i * g i) := by
  obtain ⟨c, hc⟩ := Option.ne_none_iff_exists'.mp hx
  unfold feFractionalOrder singleVariable
  rw [if_pos hd, if_pos hd]
  obtain ⟨v, hv⟩ : ∃ v, (SFun.lookup find cell2dof dpe u).eval x = some v := by
    simp [SFun.eval, hc]
  obtain ⟨g, hg⟩ : ∃ g, (SFun.lookup find cell2dof dpe u).grad x = some g := by
    simp [SFun.grad, hc]
  refine ⟨_, _, v, g, rfl, rfl, rfl, hv, hg, ?_⟩
  · simp only [SFun.eval, SFun.grad, hc, Option.map_some, Option.some.injEq] at hv hg
    rw [← hv, ← hg]
    simp only [Order.eval, Data.evalPtr, SFun.eval, hc, Option.map_some]
    rw [lookup_affine (cell2dof c.1) c.2 u w num_dofs dpe (hN c.1)]

/-- The object rebuilt from `__reduce__` (pickling, copying) is the same one; for `innerOuterFractionalOrder` in one
dimension. -/
theorem reduce_partial {sqrt : K → K} (hsqrt : ∀ a, 0 ≤ a → sqrt a * sqrt a = a) (junk : Nat → K) {o : Order K}
    (h : Built o ∨ ∃ find cell2dof dpe n u smin smax, feFractionalOrder find cell2dof dpe n u smin smax = some o)
    (hd : ∀ dim sii soo sio soi r2 mem, o.data = .innerOuter dim sii soo sio soi r2 mem → dim ≤ 1) :
    ∃ o', o.reduce sqrt junk = some o' ∧ o'.min = o.min ∧ o'.max = o.max ∧ o'.symmetric = o.symmetric ∧
      o'.numParameters = o.numParameters ∧ (∀ x y, o'.eval x y = o.eval x y) ∧ ∀ x y, o'.evalGrad x y = o.evalGrad x y := by
  have single : ∀ {f a b n}, singleVariable f a b n = some o → ∃ o', o.reduce sqrt junk = some o' ∧ o'.min = o.min ∧
      o'.max = o.max ∧ o'.symmetric = o.symmetric ∧ o'.numParameters = o.numParameters ∧
      (∀ x y, o'.eval x y = o.eval x y) ∧ ∀ x y, o'.evalGrad x y = o.evalGrad x y := by
    intro f a b n h
    have h' := h
    obtain ⟨hn, rfl⟩ := singleVariable_eq h
    exact ⟨_, h', rfl, rfl, rfl, rfl, fun _ _ => rfl, fun _ _ => rfl⟩
  rcases h with h | ⟨find, cell2dof, dpe, n, u, smin, smax, h⟩
  swap
  · exact single h
  cases h with
  | const s => exact ⟨_, rfl, rfl, rfl, rfl, rfl, fun _ _ => rfl, fun _ _ => rfl⟩
  | variableConst s => exact ⟨_, rfl, rfl, rfl, rfl, rfl, fun _ _ => rfl, fun _ _ => rfl⟩
  | constantNonSym h => exact single h
  | smoothed hr h => exact single h
  | linear hr h => exact single h
  | leftRight sll srr slr srl interface => exact ⟨_, rfl, rfl, rfl, rfl, rfl, fun _ _ => rfl, fun _ _ => rfl⟩
  | innerOuter dim sii soo r center sio soi junk' =>
    have hd := hd _ _ _ _ _ _ _ rfl
    refine ⟨_, rfl, rfl, rfl, rfl, rfl, fun x y => ?_, fun _ _ => rfl⟩
    have e : ∀ z : Nat → K, radius2 dim (fun i => if i = 0 then center 0 else junk i) z =
        radius2 dim (fun i => if i = 0 then center 0 else junk' i) z := by
      intro z
      obtain rfl | rfl : dim = 0 ∨ dim = 1 := by omega
      · rfl
      · rfl
    simp only [Order.eval, FractionalOrders.innerOuter, Data.evalPtr, orMean, if_true, e,
      hsqrt _ (mul_self_nonneg r)]
  | islands sii soo r r2 sio soi => exact ⟨_, rfl, rfl, rfl, rfl, rfl, fun _ _ => rfl, fun _ _ => rfl⟩
  | layers h =>
    obtain ⟨-, -, -, -, h3⟩ := layers_eq h
    refine ⟨o, ?_, rfl, rfl, rfl, rfl, fun _ _ => rfl, fun _ _ => rfl⟩
    simp only [Order.reduce, h3]
    exact h
  | @piecewise dim n ind sVals o hind h =>
    obtain ⟨a, m, h0, h1, h2, h4, h5, h6, h3⟩ := piecewiseConstant_eq h
    refine ⟨o, ?_, rfl, rfl, rfl, rfl, fun _ _ => rfl, fun _ _ => rfl⟩
    simp only [Order.reduce, h3]
    have e : fillBlocks n (fun i j => some (a i j)) = some a := by
      simp [fillBlocks, orMean]
    rw [piecewiseConstant, e, Option.bind_some, h1, Option.bind_some, h2, Option.bind_some, h4, Option.map_some, ← h5, ← h6, ← h3]

/-! ### Cases -/

example : Built (leftRight (1 / 4) (3 / 4) none none 0 : Order ℚ) := .leftRight _ _ _ _ _

example : ∃ o : Order ℚ, Built o ∧ o.eval (fun _ => 1 / 20) (fun _ => 0) = some (43 / 64) ∧ o.min = 1 / 4 ∧ o.max = 3 / 4 :=
  ⟨_, .smoothed (sl := 1 / 4) (sr := 3 / 4) (r := 1 / 10) (interface := 0) (by norm_num) rfl, by decide +kernel,
    by decide +kernel, by decide +kernel⟩

/-- Two layers of different orders. -/
def twoLayers : Nat → Nat → ℚ := fun i j => if i = j then (if i = 0 then 1 / 4 else 3 / 4) else 1 / 2

example : ∃ o, layers 2 2 (fun i => (i : ℚ)) twoLayers = some o ∧ o.symmetric = true ∧ o.min = 1 / 4 ∧ o.max = 3 / 4 ∧
    o.eval (fun _ => 1 / 2) (fun _ => 3 / 2) = some (1 / 2) :=
  ⟨_, rfl, by decide +kernel, by decide +kernel, by decide +kernel, by decide +kernel⟩

/-! ### Defects -/

/-- The sum of two orders is evaluated as their product; it is not the sum, and not within the bounds. -/
theorem sum_fails : ∃ (s1 s2 o : Order ℚ), Built s1 ∧ Built s2 ∧ add s1 s2 = some o ∧ ∀ x y,
    s1.eval x y = some (1 / 4) ∧ s2.eval x y = some (1 / 4) ∧ o.eval x y = some (1 / 16) ∧ o.min = 1 / 4 :=
  ⟨_, _, _, .variableConst (1 / 4), .variableConst (1 / 4), rfl, fun x y => ⟨rfl, rfl, by
    simp only [Order.eval, Data.evalPtr, variableConstFractionalOrder, Option.bind_some, Option.map_some]
    norm_num, by decide +kernel⟩⟩

/-- `innerOuterFractionalOrder` in two dimensions reads a coordinate of the centre from uninitialised memory: with some
contents of the memory, the centre of the ball is not inside of it. -/
theorem innerOuter_fails : ∃ junk : Nat → ℚ,
    (innerOuter 2 (1 / 4) (3 / 4) 1 (fun _ => 0) none none junk).eval (fun _ => 0) (fun _ => 0) = some (3 / 4) :=
  ⟨fun _ => 5, by decide +kernel⟩

/-- An order of blocks has the value -1 where the indicator is out of range. -/
theorem piecewise_fails : ∃ o : Order ℚ, piecewiseConstant 1 (fun _ => -1) 1 (fun _ _ => some (1 / 2)) = some o ∧
    o.min = 1 / 2 ∧ ∀ x y, o.eval x y = some (-1) :=
  ⟨_, rfl, by decide +kernel, fun _ _ => rfl⟩

/-- An order of blocks can be flagged as symmetric when it is not. -/
theorem symmetric_fails : ∃ (o : Order ℚ) (x y : Nat → ℚ), piecewiseConstant 1 (fun x => if x 0 < 0 then 0 else 1) 2
    (fun i j => some (if i < j then 1 / 2 else 1 / 2 + 1 / 10 ^ 11)) = some o ∧ o.symmetric = true ∧ o.eval x y ≠ o.eval y x :=
  ⟨_, fun _ => -1, fun _ => 1, rfl, by decide +kernel, by decide +kernel⟩

/-- `__reduce__` is inherited from the base class by `lambdaFractionalOrder`: the rebuilt order cannot be evaluated. -/
theorem reduce_fails (sqrt : K → K) (junk : Nat → K) (dim : Nat) (smin smax : K) (symmetric : Bool)
    (f : (Nat → K) → (Nat → K) → K) (x y : Nat → K) :
    (lambdaFractionalOrder dim smin smax symmetric f).eval x y = some (f x y) ∧
      ∃ o, (lambdaFractionalOrder dim smin smax symmetric f).reduce sqrt junk = some o ∧ o.eval x y = none :=
  ⟨rfl, _, rfl, rfl⟩

/-- `smoothedInnerOuterFractionalOrder` cannot be constructed. -/
theorem smoothedInnerOuter_fails (f : SFun K) (sl sr : K) : smoothedInnerOuter f sl sr = none := rfl

end PyNucleus.Props.C75
