import Verif.Proof.Schur
import Mathlib.Algebra.Order.Field.Rat
import Mathlib.Tactic.Linarith
import Mathlib.Algebra.Order.BigOperators.Group.Finset

/-!
# C95: Schur complements and linear combinations of operators

Full statement: the Schur complement of an operator with respect to a set of dofs maps `x` to the entries of `A z` at these dofs, where `z` extends `x` such that `A z` vanishes at
all other dofs; it is symmetric or positive definite if the operator is, and solves the eliminated system.  A linear combination of operators is the product with the
linear combination of the matrices, in all four variants.
-/

namespace PyNucleus.Props.C95

open PyNucleus.Spec PyNucleus.Schur PyNucleus.Blas

variable {K : Type}

/-- What the constructor ensures: distinct indices of dofs, arrays of the right sizes. -/
structure Built [CommRing K] (S : Data K) (a : Nat → Nat → K) : Prop where
  nodup : S.indices.Nodup
  lt : ∀ i ∈ S.indices, i < S.n
  applies : Applies S.n S.A a
  temp1 : S.temp1.length = S.n
  temp2 : S.temp2.length = S.n
  newIndices1 : S.newIndices1.length = S.indices.length
  newData1 : S.newData1.length = S.indices.length
  newIndices2 : S.newIndices2.length = (others S.n S.indices).length
  newData2 : S.newData2.length = (others S.n S.indices).length

/-- The solver solves with the block of the other dofs, whatever its initial guess. -/
def Solves [CommRing K] (S : Data K) (a : Nat → Nat → K) (inv : List K → List K → List K) : Prop :=
  ∀ b g, b.length = (others S.n S.indices).length → g.length = (others S.n S.indices).length → (inv b g).length = (others S.n S.indices).length ∧
    ∀ i < (others S.n S.indices).length, ∑ j ∈ Finset.range (others S.n S.indices).length, a ((others S.n S.indices).getD i 0) ((others S.n S.indices).getD j 0) * (inv b g).getD j 0 = b.getD i 0

/-- The entries of `z` at the dofs are `x`, and `A z` vanishes at all others. -/
def Harmonic [CommRing K] (S : Data K) (a : Nat → Nat → K) (x z : List K) : Prop :=
  z.length = S.n ∧ (∀ i < S.indices.length, z.getD (S.indices.getD i 0) 0 = x.getD i 0) ∧ ∀ d < S.n, d ∉ S.indices → mulVec S.n a z d = 0

section
variable [CommRing K] {S : Data K} {a : Nat → Nat → K} {inv : List K → List K → List K} {m1 m2 m3 : List K}

/-- Both products, with an extension that does not depend on the result vector. -/
theorem matvec (h : Built S a) (hs : Solves S a inv) (hm1 : m1.length = (others S.n S.indices).length) (hm2 : m2.length = (others S.n S.indices).length)
    (hm3 : m3.length = S.indices.length) (x : List K) :
    ∃ z, Harmonic S a x z ∧ ∀ y, y.length = S.indices.length →
      (schurMatvec S inv m1 m2 m3 x y).length = S.indices.length ∧
      (∀ i < S.indices.length, (schurMatvec S inv m1 m2 m3 x y).getD i 0 = mulVec S.n a z (S.indices.getD i 0)) ∧
      (schurMatvecNoOverwrite S inv m1 m2 m3 x y).length = S.indices.length ∧
      ∀ i < S.indices.length, (schurMatvecNoOverwrite S inv m1 m2 m3 x y).getD i 0 = y.getD i 0 + mulVec S.n a z (S.indices.getD i 0) := by
  have hJ : ∀ i ∈ others S.n S.indices, i < S.n := fun i hi => ((others_mem _ _ i).1 hi).1
  let t := block S (selection S.n (others S.n S.indices)) (P1 S) x m1
  have ht := block_eq h.applies h.temp1 h.temp2 hJ h.lt S.newIndices1 S.newData1 h.newIndices1 h.newData1 x m1 hm1
  let w := inv t m2
  obtain ⟨hw1, hw2⟩ := hs t m2 ht.1 hm2
  have hc := block_eq h.applies h.temp1 h.temp2 h.lt hJ S.newIndices2 S.newData2 h.newIndices2 h.newData2 w m3 hm3
  let z := extend S.n S.indices x (w.map fun v => -v)
  obtain ⟨z1, z2⟩ := extend_getD h.nodup h.lt x (w.map fun v => -v)
  have z2' : ∀ j < (others S.n S.indices).length, z.getD ((others S.n S.indices).getD j 0) 0 = -w.getD j 0 := fun j hj => by
    rw [z2 j hj, List.getD_eq_getElem _ _ (by rw [List.length_map, hw1]; exact hj), List.getElem_map, List.getD_eq_getElem]
  have hz : ∀ c, mulVec S.n a z c = (∑ j ∈ Finset.range S.indices.length, a c (S.indices.getD j 0) * x.getD j 0) -
      ∑ j ∈ Finset.range (others S.n S.indices).length, a c ((others S.n S.indices).getD j 0) * w.getD j 0 := fun c => by
    unfold mulVec
    rw [sum_split h.nodup h.lt, sub_eq_add_neg, ← Finset.sum_neg_distrib]
    congr 1
    · exact Finset.sum_congr rfl fun j hj => by rw [z1 j (Finset.mem_range.1 hj)]
    · exact Finset.sum_congr rfl fun j hj => by rw [z2' j (Finset.mem_range.1 hj), mul_neg]
  refine ⟨z, ⟨by show (extend _ _ _ _).length = _; unfold extend; rw [List.length_map, List.length_range], z1, fun d hd hm => ?_⟩, fun y hy => ?_⟩
  · have hdm : d ∈ others S.n S.indices := (others_mem _ _ d).2 ⟨hd, hm⟩
    obtain ⟨k, hk, e⟩ := List.getElem_of_mem hdm
    have e' : (others S.n S.indices).getD k 0 = d := by rw [List.getD_eq_getElem _ _ hk]; exact e
    rw [hz d, ← e', hw2 k hk, sub_eq_zero]
    exact (ht.2.1 k hk).symm
  · have hy1 := block_eq h.applies h.temp1 h.temp2 h.lt h.lt S.newIndices1 S.newData1 h.newIndices1 h.newData1 x y hy
    obtain ⟨u1, u2⟩ := updateScaled_eq (block S (selection S.n S.indices) (P1 S) x y) (correction S inv m1 m2 m3 x) (-1)
    obtain ⟨v1, v2⟩ := updateScaled_eq (blockNoOverwrite S (selection S.n S.indices) (P1 S) x y) (correction S inv m1 m2 m3 x) (-1)
    refine ⟨u1.trans hy1.1, fun i hi => ?_, v1.trans hy1.2.2.1, fun i hi => ?_⟩
    · show (updateScaled _ _ _).getD i 0 = _
      rw [u2 i (lt_of_lt_of_eq hi hy1.1.symm), hz]
      have e1 := hy1.2.1 i hi
      have e2 := hc.2.1 i hi
      rw [show (block S (selection S.n S.indices) (P1 S) x y).getD i 0 = _ from e1, show (correction S inv m1 m2 m3 x).getD i 0 = _ from e2]
      ring
    · show (updateScaled _ _ _).getD i 0 = _
      rw [v2 i (lt_of_lt_of_eq hi hy1.2.2.1.symm), hz]
      have e1 := hy1.2.2.2 i hi
      have e2 := hc.2.1 i hi
      rw [show (blockNoOverwrite S (selection S.n S.indices) (P1 S) x y).getD i 0 = _ from e1, show (correction S inv m1 m2 m3 x).getD i 0 = _ from e2]
      ring

/-- Pairing with any vector that has the right entries at the dofs. -/
theorem pairing (h : Built S a) {x z : List K} (hz : Harmonic S a x z) {w v : List K} (hw : ∀ i < S.indices.length, v.getD (S.indices.getD i 0) 0 = w.getD i 0) :
    (∑ i ∈ Finset.range S.indices.length, w.getD i 0 * mulVec S.n a z (S.indices.getD i 0)) = ∑ d ∈ Finset.range S.n, v.getD d 0 * mulVec S.n a z d := by
  rw [sum_split h.nodup h.lt (fun d => v.getD d 0 * mulVec S.n a z d)]
  have : (∑ j ∈ Finset.range (others S.n S.indices).length, v.getD ((others S.n S.indices).getD j 0) 0 * mulVec S.n a z ((others S.n S.indices).getD j 0)) = 0 := by
    refine Finset.sum_eq_zero fun j hj => ?_
    have hj := Finset.mem_range.1 hj
    have hm := (others_mem S.n S.indices ((others S.n S.indices).getD j 0)).1 (by rw [List.getD_eq_getElem _ _ hj]; exact List.getElem_mem hj)
    rw [hz.2.2 _ hm.1 hm.2, mul_zero]
  rw [this, add_zero]
  exact Finset.sum_congr rfl fun i hi => by rw [hw i (Finset.mem_range.1 hi)]

/-- The Schur complement of a symmetric operator is symmetric. -/
theorem symmetric (h : Built S a) (hs : Solves S a inv) (hm1 : m1.length = (others S.n S.indices).length) (hm2 : m2.length = (others S.n S.indices).length)
    (hm3 : m3.length = S.indices.length) (hsym : ∀ i < S.n, ∀ j < S.n, a i j = a j i) (x w y y' : List K) (hy : y.length = S.indices.length) (hy' : y'.length = S.indices.length) :
    dot S.indices.length w (schurMatvec S inv m1 m2 m3 x y) = dot S.indices.length x (schurMatvec S inv m1 m2 m3 w y') := by
  obtain ⟨z, hz, e⟩ := matvec h hs hm1 hm2 hm3 x
  obtain ⟨z', hz', e'⟩ := matvec h hs hm1 hm2 hm3 w
  unfold dot
  rw [Finset.sum_congr rfl fun i hi => by rw [(e y hy).2.1 i (Finset.mem_range.1 hi)], Finset.sum_congr (s₁ := Finset.range S.indices.length) (f := fun i => x.getD i 0 * _) rfl
    fun i hi => by rw [(e' y' hy').2.1 i (Finset.mem_range.1 hi)], pairing h hz hz'.2.1, pairing h hz' hz.2.1]
  unfold mulVec
  simp only [Finset.mul_sum]
  rw [Finset.sum_comm]
  refine Finset.sum_congr rfl fun d hd => Finset.sum_congr rfl fun c hc => ?_
  rw [hsym c (Finset.mem_range.1 hc) d (Finset.mem_range.1 hd)]
  ring

/-- Solving with the Schur complement: if `S x = b`, the extension of `x` solves `A z = b` with zero right-hand side at the other dofs; conversely a solution of
this system has entries with `S x = b`, if the block of the other dofs is injective. -/
theorem solve (h : Built S a) (hs : Solves S a inv) (hm1 : m1.length = (others S.n S.indices).length) (hm2 : m2.length = (others S.n S.indices).length)
    (hm3 : m3.length = S.indices.length) (x b y : List K) (hy : y.length = S.indices.length) :
    ((∀ i < S.indices.length, (schurMatvec S inv m1 m2 m3 x y).getD i 0 = b.getD i 0) →
      ∃ z, Harmonic S a x z ∧ ∀ i < S.indices.length, mulVec S.n a z (S.indices.getD i 0) = b.getD i 0) ∧
    ((∀ v : List K, (∀ d < S.n, d ∈ S.indices → v.getD d 0 = 0) → (∀ d < S.n, d ∉ S.indices → mulVec S.n a v d = 0) → ∀ d < S.n, v.getD d 0 = 0) →
      ∀ z, Harmonic S a x z → (∀ i < S.indices.length, mulVec S.n a z (S.indices.getD i 0) = b.getD i 0) →
        ∀ i < S.indices.length, (schurMatvec S inv m1 m2 m3 x y).getD i 0 = b.getD i 0) := by
  obtain ⟨z, hz, e⟩ := matvec h hs hm1 hm2 hm3 x
  refine ⟨fun hb => ⟨z, hz, fun i hi => by rw [← (e y hy).2.1 i hi]; exact hb i hi⟩, fun hinj z' hz' hb i hi => ?_⟩
  have hsub : ∀ d < S.n, ((List.range S.n).map fun d => z.getD d 0 - z'.getD d 0).getD d 0 = z.getD d 0 - z'.getD d 0 := fun d hd => by
    rw [List.getD_eq_getElem?_getD, List.getElem?_map, List.getElem?_range hd]; rfl
  have hmv : ∀ c, mulVec S.n a ((List.range S.n).map fun d => z.getD d 0 - z'.getD d 0) c = mulVec S.n a z c - mulVec S.n a z' c := fun c => by
    unfold mulVec
    rw [← Finset.sum_sub_distrib]
    exact Finset.sum_congr rfl fun d hd => by rw [hsub d (Finset.mem_range.1 hd), mul_sub]
  have h0 := hinj ((List.range S.n).map fun d => z.getD d 0 - z'.getD d 0) (fun d hd hm => by
      obtain ⟨k, hk, ek⟩ := List.getElem_of_mem hm
      have ek' : S.indices.getD k 0 = d := by rw [List.getD_eq_getElem _ _ hk]; exact ek
      rw [hsub d hd, ← ek', hz.2.1 k hk, hz'.2.1 k hk, sub_self])
    (fun d hd hm => by rw [hmv, hz.2.2 d hd hm, hz'.2.2 d hd hm, sub_self])
  rw [(e y hy).2.1 i hi, ← hb i hi]
  unfold mulVec
  refine Finset.sum_congr rfl fun d hd => ?_
  have hd := Finset.mem_range.1 hd
  have := h0 d hd
  rw [hsub d hd, sub_eq_zero] at this
  rw [this]

end

/-- The Schur complement of a positive definite operator is positive definite, and its energy is the least one of all extensions of `x`. -/
theorem energy [Field K] [LinearOrder K] [IsStrictOrderedRing K] {S : Data K} {a : Nat → Nat → K} {inv : List K → List K → List K} {m1 m2 m3 : List K} (h : Built S a) (hs : Solves S a inv)
    (hm1 : m1.length = (others S.n S.indices).length) (hm2 : m2.length = (others S.n S.indices).length) (hm3 : m3.length = S.indices.length)
    (hsym : ∀ i < S.n, ∀ j < S.n, a i j = a j i) (hpos : ∀ v : List K, (∃ d < S.n, v.getD d 0 ≠ 0) → 0 < ∑ d ∈ Finset.range S.n, v.getD d 0 * mulVec S.n a v d)
    (x y : List K) (hy : y.length = S.indices.length) :
    ((∃ i < S.indices.length, x.getD i 0 ≠ 0) → 0 < dot S.indices.length x (schurMatvec S inv m1 m2 m3 x y)) ∧
    ∀ v : List K, (∀ i < S.indices.length, v.getD (S.indices.getD i 0) 0 = x.getD i 0) →
      dot S.indices.length x (schurMatvec S inv m1 m2 m3 x y) ≤ ∑ d ∈ Finset.range S.n, v.getD d 0 * mulVec S.n a v d := by
  obtain ⟨z, hz, e⟩ := matvec h hs hm1 hm2 hm3 x
  have hdot : dot S.indices.length x (schurMatvec S inv m1 m2 m3 x y) = ∑ d ∈ Finset.range S.n, z.getD d 0 * mulVec S.n a z d := by
    unfold dot
    rw [Finset.sum_congr rfl fun i hi => by rw [(e y hy).2.1 i (Finset.mem_range.1 hi)], pairing h hz hz.2.1]
  refine ⟨fun ⟨i, hi, hx⟩ => ?_, fun v hv => ?_⟩
  · rw [hdot]
    exact hpos z ⟨S.indices.getD i 0, getD_lt h.lt hi, by rw [hz.2.1 i hi]; exact hx⟩
  · rw [hdot]
    have hsub : ∀ d < S.n, ((List.range S.n).map fun d => v.getD d 0 - z.getD d 0).getD d 0 = v.getD d 0 - z.getD d 0 := fun d hd => by
      rw [List.getD_eq_getElem?_getD, List.getElem?_map, List.getElem?_range hd]; rfl
    have hmv : ∀ c, mulVec S.n a ((List.range S.n).map fun d => v.getD d 0 - z.getD d 0) c = mulVec S.n a v c - mulVec S.n a z c := fun c => by
      unfold mulVec
      rw [← Finset.sum_sub_distrib]
      exact Finset.sum_congr rfl fun d hd => by rw [hsub d (Finset.mem_range.1 hd), mul_sub]
    have hnn : 0 ≤ ∑ d ∈ Finset.range S.n, (v.getD d 0 - z.getD d 0) * (mulVec S.n a v d - mulVec S.n a z d) := by
      by_cases q : ∃ d < S.n, v.getD d 0 - z.getD d 0 ≠ 0
      · obtain ⟨d, hd, q⟩ := q
        have := hpos ((List.range S.n).map fun d => v.getD d 0 - z.getD d 0) ⟨d, hd, by rw [hsub d hd]; exact q⟩
        rw [Finset.sum_congr rfl fun d hd => by rw [hsub d (Finset.mem_range.1 hd), hmv]] at this
        exact this.le
      · push Not at q
        rw [Finset.sum_eq_zero fun d hd => by rw [q d (Finset.mem_range.1 hd), zero_mul]]
    have hvz : (∑ d ∈ Finset.range S.n, v.getD d 0 * mulVec S.n a z d) = ∑ d ∈ Finset.range S.n, z.getD d 0 * mulVec S.n a z d := by
      rw [← pairing h hz hz.2.1, ← pairing h hz hv]
    have hzv : (∑ d ∈ Finset.range S.n, z.getD d 0 * mulVec S.n a v d) = ∑ d ∈ Finset.range S.n, v.getD d 0 * mulVec S.n a z d := by
      unfold mulVec
      simp only [Finset.mul_sum]
      rw [Finset.sum_comm]
      refine Finset.sum_congr rfl fun d hd => Finset.sum_congr rfl fun c hc => ?_
      rw [hsym c (Finset.mem_range.1 hc) d (Finset.mem_range.1 hd)]
      ring
    simp only [sub_mul, mul_sub, Finset.sum_sub_distrib] at hnn
    rw [hzv, hvz] at hnn
    linarith

/-! ### Linear combinations -/

section
variable [CommRing K]

/-- The operator writes the product with `a` to the first `n` entries of a vector that is long enough, and keeps the length. -/
def Multiplies (n : Nat) (p : Product K) (m : Nat) (a : Nat → Nat → K) : Prop :=
  p.rows = n ∧ ∀ x y, n ≤ y.length → (p.apply x y).length = y.length ∧ ∀ i < n, (p.apply x y).getD i 0 = mulVec m a x i

theorem rest {n m : Nat} (x : List K) : ∀ (ops : List (Product K × K)) (as : List (Nat → Nat → K)) (y z : List K), List.Forall₂ (fun p a => Multiplies n p.1 m a) ops as →
    y.length = n → n ≤ z.length → ∃ r, addRest x ops y z = some r ∧ r.length = n ∧
      ∀ i < n, r.getD i 0 = y.getD i 0 + ((List.zip ops as).map fun q => q.1.2 * mulVec m q.2 x i).sum := by
  intro ops
  induction ops with
  | nil =>
    intro as y z h hy _
    cases h
    exact ⟨y, rfl, hy, fun i _ => by simp⟩
  | cons p ops ih =>
    intro as y z h hy hz
    obtain ⟨op, c⟩ := p
    obtain ⟨a, as', ha, has, rfl⟩ := List.forall₂_cons_left_iff.1 h
    obtain ⟨a1, a2⟩ := ha
    obtain ⟨l1, l2⟩ := a2 x z hz
    dsimp only at l1 l2
    obtain ⟨s1, s2⟩ := assign3Self_eq y 1 (op.apply x z) c
    obtain ⟨r, r1, r2, r3⟩ := ih as' (assign3Self y 1 (op.apply x z) c) (op.apply x z) has (by omega) (by omega)
    refine ⟨r, ?_, r2, fun i hi => ?_⟩
    · unfold addRest Product.call
      dsimp only at a1 ⊢
      rw [if_neg (by omega)]
      exact r1
    · rw [r3 i hi, s2 i (by omega), l2 i hi, List.zip_cons_cons, List.map_cons, List.sum_cons]
      ring

/-- `matvec`, and `matvecTrans` if the temporary vector is long enough, which it is if there are not more columns than rows: `z` has as many entries as there are rows. -/
theorem combination_partial {n m : Nat} {ops : List (Product K × K)} {as : List (Nat → Nat → K)} (hne : ops ≠ []) (h : List.Forall₂ (fun p a => Multiplies n p.1 m a) ops as)
    (x y z : List K) (hy : y.length = n) (hz : n ≤ z.length) :
    ∃ r, sumMatvec ops x y z = some r ∧ r.length = n ∧ ∀ i < n, r.getD i 0 = mulVec m (fun i j => ((List.zip ops as).map fun q => q.1.2 * q.2 i j).sum) x i := by
  cases h with
  | nil => exact absurd rfl hne
  | @cons p a ops as ha has =>
    obtain ⟨op, c⟩ := p
    obtain ⟨a1, a2⟩ := ha
    obtain ⟨l1, l2⟩ := a2 x y (by omega)
    dsimp only at l1 l2
    obtain ⟨s1, s2⟩ := scaleScalar_eq (op.apply x y) c
    obtain ⟨r, r1, r2, r3⟩ := rest (n := n) (m := m) x ops as (scaleScalar (op.apply x y) c) z has (by omega) hz
    refine ⟨r, ?_, r2, fun i hi => ?_⟩
    · unfold sumMatvec Product.call
      dsimp only at a1 ⊢
      rw [if_neg (by omega)]
      exact r1
    · rw [r3 i hi, s2 i (by omega), l2 i hi]
      have key : ∀ l : List ((Product K × K) × (Nat → Nat → K)), mulVec m (fun i j => (l.map fun q => q.1.2 * q.2 i j).sum) x i = (l.map fun q => q.1.2 * mulVec m q.2 x i).sum := by
        intro l
        induction l with
        | nil => unfold mulVec; simp
        | cons q l ih =>
          unfold mulVec at ih ⊢
          simp only [List.map_cons, List.sum_cons, add_mul, Finset.sum_add_distrib]
          rw [ih, Finset.mul_sum]
          congr 1
          exact Finset.sum_congr rfl fun j _ => by ring
      rw [key, List.zip_cons_cons, List.map_cons, List.sum_cons]
      ring

/-- `matvecTrans_no_overwrite` adds the product. -/
theorem combination_adds_partial {n m : Nat} {ops : List (Product K × K)} {as : List (Nat → Nat → K)} (h : List.Forall₂ (fun p a => Multiplies n p.1 m a) ops as)
    (x y z : List K) (hy : y.length = n) (hz : n ≤ z.length) :
    ∃ r, sumMatvecTransNoOverwrite ops x y z = some r ∧ r.length = n ∧ ∀ i < n, r.getD i 0 = y.getD i 0 + ((List.zip ops as).map fun q => q.1.2 * mulVec m q.2 x i).sum :=
  rest x ops as y z h hy hz

/-- `matvec_no_overwrite` always raises an error. -/
theorem no_overwrite_fails (ops : List (Product K × K)) (x y z : List K) : sumMatvecNoOverwrite ops x y z = none := rfl

/-- `matvecTrans` of two or more operators with fewer rows than columns writes behind the end of `z`. -/
theorem transposed_fails {n rows : Nat} (p q : Product K × K) (ops : List (Product K × K)) (hp : p.1.rows = n) (hq : q.1.rows = n) (x y z : List K) (hy : y.length = n) (hz : z.length = rows)
    (hr : rows < n) : sumMatvec (p :: q :: ops) x y z = none := by
  unfold sumMatvec Product.call
  dsimp only
  rw [if_neg (by omega)]
  dsimp only
  unfold addRest Product.call
  rw [if_pos (by omega)]

end

/-- The operator of the one-dimensional Laplacian with three dofs, and its Schur complement for the outer two: [[3/2, -1/2], [-1/2, 3/2]]. -/
def tri (i j : Nat) : ℚ := if i = j then 2 else if i + 1 = j ∨ j + 1 = i then -1 else 0

def sample : Data ℚ where
  n := 3
  A := fun x _ => (List.range 3).map fun i => mulVec 3 tri x i
  indices := [2, 0]
  newIndices1 := [9, 9]
  newData1 := [9, 9]
  newIndices2 := [9]
  newData2 := [9]
  temp1 := [9, 9, 9]
  temp2 := [9, 9, 9]

theorem sample_case : Built sample tri ∧ Solves sample tri (fun b _ => [b.getD 0 0 / 2]) ∧ others 3 [2, 0] = [1] ∧
    schurMatvec sample (fun b _ => [b.getD 0 0 / 2]) [7] [7] [7, 7] [1, 3] [7, 7] = [0, 4] ∧
    sumMatvec [(⟨2, fun x _ => x⟩, (3 : ℚ)), (⟨2, fun x _ => x.reverse⟩, 1)] [1, 2] [7, 7] [7, 7] = some [5, 7] := by
  refine ⟨⟨by decide, by decide, ?_, rfl, rfl, rfl, rfl, by decide +kernel, by decide +kernel⟩, ?_, by decide +kernel, by decide +kernel, by decide +kernel⟩
  · intro x y _
    refine ⟨rfl, fun i hi => ?_⟩
    have : i = 0 ∨ i = 1 ∨ i = 2 := by
      have : i < 3 := hi
      omega
    rcases this with rfl | rfl | rfl <;> rfl
  · intro b g _ _
    have e : others sample.n sample.indices = [1] := by decide +kernel
    rw [e]
    refine ⟨rfl, fun i hi => ?_⟩
    have : i = 0 := by simpa using hi
    subst this
    show ∑ j ∈ Finset.range 1, tri 1 ([1].getD j 0) * [b.getD 0 0 / 2].getD j 0 = b.getD 0 0
    rw [Finset.sum_range_one]
    show (2 : ℚ) * (b.getD 0 0 / 2) = b.getD 0 0
    ring

end PyNucleus.Props.C95
