import Verif.Proof.InnerProducts
import Verif.Proof.OverlapExample
import Mathlib.Tactic.LinearCombination
import Mathlib.Algebra.Order.BigOperators.Ring.Finset

/-!
# C94: distributed inner products and norms

Full statement: the distributed inner product of two vectors is the inner product of the global vectors they stand for, whether they are accumulated or sums of parts; the norm is
the Euclidean norm of the global vector; the complex versions conjugate the first argument.  All ranks stop at the same call of the convergence criterion, when the global residual is
below the tolerance or `maxiter` is reached.
-/

namespace PyNucleus.Props.C94

open PyNucleus.InnerProducts PyNucleus.Overlap PyNucleus.Blas PyNucleus.Spec

variable {K : Type} {gid : Nat → Nat → Nat}

/-- The managers of level `L`. -/
def at' (R : Ranks K) (L : Nat) : Nat → Manager := fun r => (R.levels r).getD L ⟨0, []⟩

/-- No higher level has the same number of dofs. -/
def SizeTells (R : Ranks K) (L : Nat) : Prop := ∀ r < R.P, ∀ k, L < k → k < (R.levels r).length → ((R.levels r).getD k ⟨0, []⟩).n ≠ (at' R L r).n

/-- Uninitialised memory has the size asked for. -/
def Allocates (R : Ranks K) : Prop := ∀ r n, (R.fresh r n).length = n

/-- The inner product of all four combinations of flags, for vectors of level `L`, whatever the temporary memory held and however large it was before.  When both are accumulated the
level is searched by the number of dofs even if it was given. -/
theorem ip_partial [Field K] [CharZero K] (R : Ranks K) {L : Nat} (hL : ∀ r < R.P, L < (R.levels r).length) (hc : Consistent R.P (at' R L) gid) (hf : Allocates R) (acc1 acc2 : Bool)
    (hlev : R.level = some L ∨ R.level = none) (hsize : (acc1 = true ∧ acc2 = true) ∨ R.level = none → SizeTells R L)
    {v1 v2 y : Nat → List K} {G1 G2 : Nat → K} (h1 : Stands R.P (at' R L) gid acc1 v1 G1) (h2 : Stands R.P (at' R L) gid acc2 v2 G2)
    (hy : acc1 = false → acc2 = false → Accumulated R.P (at' R L) v1 y) :
    ipDistributed R acc1 acc2 v1 v2 y = some (∑ d ∈ dofs R.P (at' R L) gid, G1 d * G2 d) := by
  obtain ⟨l1, h1⟩ := h1
  obtain ⟨l2, h2⟩ := h2
  unfold ipDistributed
  cases acc1 <;> cases acc2
  · -- both are sums of parts
    rw [if_neg (by decide)] at h1 h2
    rw [reduce_some R.P _ (fun r => ∑ i ∈ Finset.range (at' R L r).n, (v2 r).getD i 0 * total R.P (at' R L) gid v1 (gid r i))]
    · rw [pairing (fun r i => (v2 r).getD i 0)]
      congr 1
      refine Finset.sum_congr rfl fun d hd => ?_
      rw [h1 d hd, ← h2 d hd, mul_comm]; rfl
    · intro r hr
      have hp : pickLevel (R.levels r) R.level (v1 r).length = some L := pick (hL r hr) (l1 r hr).symm
        (hlev.imp id fun e => ⟨e, fun k hk1 hk2 => by rw [l1 r hr]; exact hsize (Or.inr e) r hr k hk1 hk2⟩)
      have hu : (v1 r).length ≤ (temporary (R.fresh r) (R.mem r) (v1 r).length).length := temporary_length (hf r) _ _
      unfold ipLocal
      rw [if_neg (by rw [l1 r hr, l2 r hr]; exact fun h => h rfl), if_pos rfl, if_neg (by decide), hp]
      dsimp only
      rw [mydot_eq _ _ _ (l2 r hr)]
      congr 1
      refine Finset.sum_congr rfl fun i hi => ?_
      have hi := Finset.mem_range.1 hi
      rw [show (accumulateInto (v1 r).length (y r) (temporary (R.fresh r) (R.mem r) (v1 r).length)).getD i 0 = (y r).getD i 0 from
        (copy_getD _ _ _ hu).2 i (by rw [l1 r hr]; exact hi), accumulated_getD hc l1 (hy rfl rfl) hr hi]
  · -- the second is accumulated
    rw [if_neg (by decide)] at h1
    rw [if_pos rfl] at h2
    rw [reduce_some R.P _ (fun r => ∑ i ∈ Finset.range (at' R L r).n, (v1 r).getD i 0 * G2 (gid r i))]
    · rw [pairing (fun r i => (v1 r).getD i 0)]
      congr 1
      refine Finset.sum_congr rfl fun d hd => ?_
      rw [← h1 d hd]; rfl
    · intro r hr
      unfold ipLocal
      rw [if_neg (by rw [l1 r hr, l2 r hr]; exact fun h => h rfl), if_neg (by decide), if_pos (by decide), mydot_eq _ _ _ (l2 r hr)]
      congr 1
      refine Finset.sum_congr rfl fun i hi => ?_
      rw [h2 r hr i (Finset.mem_range.1 hi), mul_comm]
  · -- the first is accumulated
    rw [if_neg (by decide)] at h2
    rw [if_pos rfl] at h1
    rw [reduce_some R.P _ (fun r => ∑ i ∈ Finset.range (at' R L r).n, (v2 r).getD i 0 * G1 (gid r i))]
    · rw [pairing (fun r i => (v2 r).getD i 0)]
      congr 1
      refine Finset.sum_congr rfl fun d hd => ?_
      rw [← h2 d hd, mul_comm]; rfl
    · intro r hr
      unfold ipLocal
      rw [if_neg (by rw [l1 r hr, l2 r hr]; exact fun h => h rfl), if_neg (by decide), if_neg (by decide), mydot_eq _ _ _ (l1 r hr)]
      congr 1
      refine Finset.sum_congr rfl fun i hi => ?_
      rw [h1 r hr i (Finset.mem_range.1 hi), mul_comm]
  · -- both are accumulated
    rw [if_pos rfl] at h1 h2
    rw [reduce_some R.P _ (fun r => ∑ i ∈ Finset.range (at' R L r).n, (G1 (gid r i) / (sharing R.P (at' R L) gid (gid r i) : K)) * G2 (gid r i))]
    · rw [pairing (fun r i => G1 (gid r i) / (sharing R.P (at' R L) gid (gid r i) : K))]
      congr 1
      exact Finset.sum_congr rfl fun d hd => by rw [total_divided hc G1 hd]
    · intro r hr
      have hp : pickLevel (R.levels r) none (v1 r).length = some L := pick (hL r hr) (l1 r hr).symm
        (Or.inr ⟨rfl, fun k hk1 hk2 => by rw [l1 r hr]; exact hsize (Or.inl ⟨rfl, rfl⟩) r hr k hk1 hk2⟩)
      have hu : (v1 r).length ≤ (temporary (R.fresh r) (R.mem r) (v1 r).length).length := temporary_length (hf r) _ _
      unfold ipLocal
      rw [if_neg (by rw [l1 r hr, l2 r hr]; exact fun h => h rfl), if_pos rfl, if_pos rfl, hp]
      dsimp only
      rw [mydot_eq _ _ _ (l2 r hr)]
      congr 1
      refine Finset.sum_congr rfl fun i hi => ?_
      have hi := Finset.mem_range.1 hi
      rw [show (distributeInto ((R.levels r).getD L ⟨0, []⟩) (v1 r) (temporary (R.fresh r) (R.mem r) (v1 r).length)).getD i 0 = _ from
        distributeInto_getD hc r hr (v1 r) _ (by rw [← l1 r hr]; exact hu) i hi, h1 r hr i hi, h2 r hr i hi]
      exact mul_comm _ _

/-- Two levels of the same local size: rank 0 has one dof on both; on the lower level rank 1 has the same dof, on the higher level nobody has. -/
def twoLevels (level : Option Nat) : Ranks ℚ where
  P := 2
  levels := fun r => if r = 0 then [⟨1, [(1, [0])]⟩, ⟨1, []⟩] else [⟨1, [(0, [0])]⟩, ⟨1, []⟩]
  level := level
  fresh := fun _ n => List.replicate n 0
  mem := fun _ => []

/-- Although the level was given, the inner product of two accumulated vectors is taken with the weights of another level: 2 instead of 1. -/
theorem ip_fails : Consistent 2 (at' (twoLevels (some 0)) 0) (fun _ _ => 0) ∧
    Stands 2 (at' (twoLevels (some 0)) 0) (fun _ _ => 0) true (fun _ => [(1 : ℚ)]) (fun _ => 1) ∧
    ipDistributed (twoLevels (some 0)) true true (fun _ => [1]) (fun _ => [1]) (fun _ => []) = some 2 ∧
    (∑ d ∈ dofs 2 (at' (twoLevels (some 0)) 0) (fun _ _ => 0), (fun _ => (1 : ℚ)) d * (fun _ => 1) d) = 1 := by
  have hn : ∀ r, (at' (twoLevels (some 0)) 0 r).n = 1 := fun r => by
    unfold at' twoLevels; dsimp only; split <;> rfl
  have hs : ∀ r s, s ∉ (at' (twoLevels (some 0)) 0 r).keys → (at' (twoLevels (some 0)) 0 r).shared s = [] := by
    intro r s h
    unfold Manager.shared
    rw [List.find?_eq_none.2 fun e he => by
      rw [decide_eq_true_eq]; rintro rfl; exact h (List.mem_map_of_mem he)]
    rfl
  have key : ∀ r < 2, (at' (twoLevels (some 0)) 0 r).keys = [1 - r] ∧ (at' (twoLevels (some 0)) 0 r).shared (1 - r) = [0] := by decide +kernel
  have hsh : ∀ r < 2, ∀ s, (at' (twoLevels (some 0)) 0 r).shared s = [0] ∧ s = 1 - r ∨ (at' (twoLevels (some 0)) 0 r).shared s = [] ∧ s ≠ 1 - r := by
    intro r hr s
    by_cases e : s = 1 - r
    · exact Or.inl ⟨by rw [e]; exact (key r hr).2, e⟩
    · exact Or.inr ⟨hs r s (by rw [(key r hr).1, List.mem_singleton]; exact e), e⟩
  refine ⟨⟨fun r hr => by rw [(key r hr).1]; exact List.nodup_singleton _, ?_, ?_, ?_, ?_, ?_, ?_, ?_⟩, ⟨fun r _ => by rw [hn]; rfl, ?_⟩, by decide +kernel, by decide +kernel⟩
  · intro r hr s h
    rw [(key r hr).1, List.mem_singleton] at h
    omega
  · intro r hr s h
    rw [(key r hr).1, List.mem_singleton] at h
    rw [(key s (by omega)).1, List.mem_singleton]
    omega
  · intro r hr s i h
    rw [hn]
    rcases hsh r hr s with ⟨e, _⟩ | ⟨e, _⟩
    · rw [e, List.mem_singleton] at h; omega
    · rw [e] at h; cases h
  · intro r _ i j hi hj _
    rw [hn] at hi hj; omega
  · intro r hr s
    rcases hsh r hr s with ⟨e, _⟩ | ⟨e, _⟩ <;> rw [e]
    · exact List.nodup_singleton _
    · exact List.nodup_nil
  · intro r s hr hs'
    rcases hsh r hr s with ⟨e, q⟩ | ⟨e, q⟩ <;> rcases hsh s hs' r with ⟨e', q'⟩ | ⟨e', q'⟩ <;> rw [e, e'] <;> omega
  · intro r s i j hr hs' hne hi _ _
    rw [hn] at hi
    have e : s = 1 - r := by omega
    rw [(key r hr).1, e, (key r hr).2, List.mem_singleton, List.mem_singleton]
    exact ⟨rfl, by omega⟩
  · rw [if_pos rfl]
    intro r _ i hi
    rw [hn] at hi
    have : i = 0 := by omega
    subst this; rfl

/-- The norm is the Euclidean norm of the global vector. -/
theorem norm (R : Ranks ℝ) {L : Nat} (hL : ∀ r < R.P, L < (R.levels r).length) (hc : Consistent R.P (at' R L) gid) (hf : Allocates R) (acc : Bool)
    (hlev : R.level = some L ∨ R.level = none ∧ SizeTells R L) {v y : Nat → List ℝ} {G : Nat → ℝ} (h : Stands R.P (at' R L) gid acc v G)
    (hy : acc = false → Accumulated R.P (at' R L) v y) :
    normDistributed R acc v y = some (Real.sqrt (∑ d ∈ dofs R.P (at' R L) gid, G d ^ 2)) := by
  obtain ⟨l, h⟩ := h
  unfold normDistributed
  have hp : ∀ r < R.P, pickLevel (R.levels r) R.level (v r).length = some L := fun r hr => pick (hL r hr) (l r hr).symm
    (hlev.imp id fun e => ⟨e.1, fun k hk1 hk2 => by rw [l r hr]; exact e.2 r hr k hk1 hk2⟩)
  have hu : ∀ r < R.P, (at' R L r).n ≤ (temporary (R.fresh r) (R.mem r) (v r).length).length := fun r hr => by
    rw [← l r hr]; exact temporary_length (hf r) _ _
  cases acc
  · rw [if_neg (by decide)] at h
    rw [reduce_some R.P _ (fun r => ∑ i ∈ Finset.range (at' R L r).n, (v r).getD i 0 * total R.P (at' R L) gid v (gid r i))]
    · rw [pairing (fun r i => (v r).getD i 0), Option.map_some]
      congr 2
      refine Finset.sum_congr rfl fun d hd => ?_
      rw [h d hd, ← h d hd, sq]; rfl
    · intro r hr
      unfold normLocal
      rw [hp r hr]
      dsimp only
      rw [if_neg (by decide), mydot_eq _ _ _ (l r hr)]
      congr 1
      refine Finset.sum_congr rfl fun i hi => ?_
      have hi := Finset.mem_range.1 hi
      rw [show (accumulateInto (v r).length (y r) (temporary (R.fresh r) (R.mem r) (v r).length)).getD i 0 = (y r).getD i 0 from
        (copy_getD _ _ _ (by rw [l r hr, ← l r hr]; exact temporary_length (hf r) _ _)).2 i (by rw [l r hr]; exact hi), accumulated_getD hc l (hy rfl) hr hi]
  · rw [if_pos rfl] at h
    rw [reduce_some R.P _ (fun r => ∑ i ∈ Finset.range (at' R L r).n, (G (gid r i) / (sharing R.P (at' R L) gid (gid r i) : ℝ)) * G (gid r i))]
    · rw [pairing (fun r i => G (gid r i) / (sharing R.P (at' R L) gid (gid r i) : ℝ)), Option.map_some]
      congr 2
      exact Finset.sum_congr rfl fun d hd => by rw [total_divided hc G hd, sq]
    · intro r hr
      unfold normLocal
      rw [hp r hr]
      dsimp only
      rw [if_pos rfl, mydot_eq _ _ _ (l r hr)]
      congr 1
      refine Finset.sum_congr rfl fun i hi => ?_
      have hi := Finset.mem_range.1 hi
      rw [show (distributeInto ((R.levels r).getD L ⟨0, []⟩) (v r) (temporary (R.fresh r) (R.mem r) (v r).length)).getD i 0 = _ from
        distributeInto_getD hc r hr (v r) _ (hu r hr) i hi, h r hr i hi]
      exact mul_comm _ _

/-- Without overlap every dof belongs to one rank, and every vector is accumulated. -/
theorem nonoverlapping [CommSemiring K] (P : Nat) (v1 v2 : Nat → List K) (hlen : ∀ r < P, (v1 r).length = (v2 r).length) :
    ipNonoverlapping P v1 v2 = some (∑ p ∈ (Finset.range P).sigma fun r => Finset.range (v2 r).length, (v1 p.1).getD p.2 0 * (v2 p.1).getD p.2 0) := by
  unfold ipNonoverlapping
  rw [reduce_some P _ (fun r => ∑ i ∈ Finset.range (v2 r).length, (v1 r).getD i 0 * (v2 r).getD i 0)]
  · rw [Finset.sum_sigma]
  · intro r hr
    rw [mydot_eq _ _ _ (hlen r hr)]; rfl

theorem nonoverlapping_norm (P : Nat) (v : Nat → List ℝ) :
    normNonoverlapping P v = some (Real.sqrt (∑ p ∈ (Finset.range P).sigma fun r => Finset.range (v r).length, (v p.1).getD p.2 0 ^ 2)) := by
  unfold normNonoverlapping
  have h := nonoverlapping P v v fun _ _ => rfl
  unfold ipNonoverlapping at h
  rw [h, Option.map_some]
  congr 2
  exact Finset.sum_congr rfl fun p _ => by rw [sq]

/-! ### Complex vectors -/

theorem re_getD (l : List ℂ) (i : Nat) : (l.map Complex.re).getD i 0 = (l.getD i 0).re := by
  rw [List.getD_eq_getElem?_getD, List.getD_eq_getElem?_getD, List.getElem?_map]
  cases l[i]? <;> rfl

theorem im_getD (l : List ℂ) (i : Nat) : (l.map Complex.im).getD i 0 = (l.getD i 0).im := by
  rw [List.getD_eq_getElem?_getD, List.getD_eq_getElem?_getD, List.getElem?_map]
  cases l[i]? <;> rfl

/-- Real and imaginary parts of the local vectors stand for those of the global vector. -/
theorem parts {P : Nat} {ov : Nat → Manager} {acc : Bool} {x : Nat → List ℂ} {G : Nat → ℂ} (h : Stands P ov gid acc x G) :
    Stands P ov gid acc (re x) (fun d => (G d).re) ∧ Stands P ov gid acc (im x) (fun d => (G d).im) := by
  obtain ⟨l, h⟩ := h
  unfold re im
  refine ⟨⟨fun r hr => by rw [List.length_map, l r hr], ?_⟩, ⟨fun r hr => by rw [List.length_map, l r hr], ?_⟩⟩ <;> cases acc
  · rw [if_neg (by decide)] at h ⊢
    intro d hd
    dsimp only
    rw [← h d hd]
    unfold total
    rw [Complex.re_sum]
    refine Finset.sum_congr rfl fun s _ => ?_
    rw [Complex.re_sum]
    exact Finset.sum_congr rfl fun j _ => by rw [re_getD]; split <;> rfl
  · rw [if_pos rfl] at h ⊢
    intro r hr i hi
    rw [re_getD, h r hr i hi]
  · rw [if_neg (by decide)] at h ⊢
    intro d hd
    dsimp only
    rw [← h d hd]
    unfold total
    rw [Complex.im_sum]
    refine Finset.sum_congr rfl fun s _ => ?_
    rw [Complex.im_sum]
    exact Finset.sum_congr rfl fun j _ => by rw [im_getD]; split <;> rfl
  · rw [if_pos rfl] at h ⊢
    intro r hr i hi
    rw [im_getD, h r hr i hi]

/-- If the real inner product is that of the global vectors, the complex one is Σ conj(G₁) G₂. -/
theorem complex_inner {P : Nat} {ov : Nat → Manager} {inner : Bool → Bool → (Nat → List ℝ) → (Nat → List ℝ) → Option ℝ} {acc1 acc2 : Bool}
    (hin : ∀ v1 v2 G1 G2, Stands P ov gid acc1 v1 G1 → Stands P ov gid acc2 v2 G2 → inner acc1 acc2 v1 v2 = some (∑ d ∈ dofs P ov gid, G1 d * G2 d))
    {x y : Nat → List ℂ} {G1 G2 : Nat → ℂ} (h1 : Stands P ov gid acc1 x G1) (h2 : Stands P ov gid acc2 y G2) :
    wrapInner inner acc1 acc2 x y = some (∑ d ∈ dofs P ov gid, (starRingEnd ℂ) (G1 d) * G2 d) := by
  obtain ⟨a1, b1⟩ := parts h1
  obtain ⟨a2, b2⟩ := parts h2
  unfold wrapInner
  rw [hin _ _ _ _ a1 a2, hin _ _ _ _ a1 b2, hin _ _ _ _ b1 b2, hin _ _ _ _ b1 a2]
  dsimp only
  congr 1
  push_cast
  rw [Finset.mul_sum, Finset.mul_sum, ← Finset.sum_add_distrib, ← Finset.sum_add_distrib, ← Finset.sum_sub_distrib]
  refine Finset.sum_congr rfl fun d _ => ?_
  apply Complex.ext
  · simp
  · simp; ring

/-- If the real norm is that of the global vector, so is the complex one. -/
theorem complex_norm {P : Nat} {ov : Nat → Manager} {nrm : Bool → (Nat → List ℝ) → Option ℝ} {acc : Bool}
    (hn : ∀ v G, Stands P ov gid acc v G → nrm acc v = some (Real.sqrt (∑ d ∈ dofs P ov gid, G d ^ 2))) {x : Nat → List ℂ} {G : Nat → ℂ} (h : Stands P ov gid acc x G) :
    wrapNorm nrm acc x = some (Real.sqrt (∑ d ∈ dofs P ov gid, ‖G d‖ ^ 2)) := by
  obtain ⟨a, b⟩ := parts h
  unfold wrapNorm
  rw [hn _ _ a, hn _ _ b]
  dsimp only
  rw [Real.sq_sqrt (Finset.sum_nonneg fun d _ => sq_nonneg _), Real.sq_sqrt (Finset.sum_nonneg fun d _ => sq_nonneg _), zero_add, ← Finset.sum_add_distrib]
  congr 2
  refine Finset.sum_congr rfl fun d _ => ?_
  rw [Complex.sq_norm, Complex.normSq_apply]
  ring

/-- Both together: distributed complex inner product and norm; `acc v` is what `accumulate` makes of `v`. -/
theorem complex_distributed_partial (R : Ranks ℝ) {L : Nat} (hL : ∀ r < R.P, L < (R.levels r).length) (hc : Consistent R.P (at' R L) gid) (hf : Allocates R)
    (hlev : R.level = some L ∨ R.level = none) (hsize : SizeTells R L) (acc : (Nat → List ℝ) → Nat → List ℝ)
    (hacc : ∀ v, (∀ r < R.P, (v r).length = (at' R L r).n) → Accumulated R.P (at' R L) v (acc v)) (acc1 acc2 : Bool)
    {x y : Nat → List ℂ} {G1 G2 : Nat → ℂ} (h1 : Stands R.P (at' R L) gid acc1 x G1) (h2 : Stands R.P (at' R L) gid acc2 y G2) :
    wrapInner (fun a b v1 v2 => ipDistributed R a b v1 v2 (acc v1)) acc1 acc2 x y = some (∑ d ∈ dofs R.P (at' R L) gid, (starRingEnd ℂ) (G1 d) * G2 d) ∧
    wrapNorm (fun a v => normDistributed R a v (acc v)) acc1 x = some (Real.sqrt (∑ d ∈ dofs R.P (at' R L) gid, ‖G1 d‖ ^ 2)) :=
  ⟨complex_inner (fun v1 _ _ _ s1 s2 => ip_partial R hL hc hf acc1 acc2 hlev (fun _ => hsize) s1 s2 fun _ _ => hacc v1 s1.1) h1 h2,
    complex_norm (fun v _ s => norm R hL hc hf acc1 (hlev.imp id fun e => ⟨e, hsize⟩) s fun _ => hacc v s.1) h1⟩

/-! ### Convergence -/

/-- Call number `k` of the criterion, counted from 0, returns true if the residual is below the tolerance or `k ≥ maxiter`; a loop ends at the first such call, in particular
after at most `maxiter + 1` calls. -/
theorem convergence (tol : ℝ) (maxiter : Nat) (residual : Nat → ℝ) (fuel : Nat) (hfuel : maxiter + 1 ≤ fuel) :
    ∃ k, Criterion.calls ⟨tol, maxiter, 0⟩ residual fuel 0 ⟨tol, maxiter, 0⟩ = k + 1 ∧ k ≤ maxiter ∧ (residual k < tol ∨ k = maxiter) ∧ ∀ j < k, tol ≤ residual j := by
  have key : ∀ fuel k, k ≤ maxiter → maxiter + 1 ≤ fuel + k → (∀ j < k, tol ≤ residual j) →
      ∃ k', Criterion.calls ⟨tol, maxiter, 0⟩ residual fuel k ⟨tol, maxiter, k⟩ = k' + 1 ∧ k' ≤ maxiter ∧ (residual k' < tol ∨ k' = maxiter) ∧ ∀ j < k', tol ≤ residual j := by
    intro fuel
    induction fuel with
    | zero => intro k h1 h2; omega
    | succ fuel ih =>
      intro k h1 h2 h3
      unfold Criterion.calls
      by_cases q : residual k < tol ∨ k ≥ maxiter
      · rw [if_pos (by unfold Criterion.eval; simpa using q)]
        exact ⟨k, rfl, h1, q.imp id fun h => by omega, h3⟩
      · rw [if_neg (by unfold Criterion.eval; simpa using q)]
        rw [not_or, not_lt, not_le] at q
        exact ih (k + 1) (by omega) (by omega) fun j hj => by
          rcases Nat.lt_succ_iff_lt_or_eq.1 hj with h | rfl
          · exact h3 j h
          · exact q.1
  exact key fuel 0 (by omega) (by omega) fun j hj => by omega

/-- Three ranks that share a dof, on the only level; memory left from a larger vector. -/
def sample : Ranks ℚ where
  P := 3
  levels := fun r => [ov3 r]
  level := none
  fresh := fun _ n => List.replicate n 99
  mem := fun _ => [7, 7, 7, 7]

/-- The accumulated vectors with entries (6, 1, 2, 3) and (1, 1, 1, 1), with inner product 12; the second as sums of parts. -/
theorem sample_case : Consistent sample.P (at' sample 0) gid3 ∧ SizeTells sample 0 ∧ Allocates sample ∧
    ipDistributed sample true true (fun r => [6, (r : ℚ) + 1]) (fun _ => [1, 1]) (fun _ => []) = some 12 ∧
    ipDistributed sample true false (fun r => [6, (r : ℚ) + 1]) (fun r => [(r : ℚ) - 2 / 3, 1]) (fun _ => []) = some 12 ∧
    ipDistributed sample false false (fun r => [2 * (r : ℚ), (r : ℚ) + 1]) (fun r => [(r : ℚ) - 2 / 3, 1]) (fun r => [6, (r : ℚ) + 1]) = some 12 := by
  refine ⟨consistent3, ?_, fun r n => List.length_replicate, by decide +kernel, by decide +kernel, by decide +kernel⟩
  intro r _ k h1 h2
  have : k < 1 := h2
  omega

end PyNucleus.Props.C94
