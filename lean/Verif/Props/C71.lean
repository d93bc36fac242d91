import Verif.Proof.NearField4
import Verif.Props.C70

/-!
# C71: assembly of the near field

The near field assembled with masks, in batches and on several ranks, contains at the entry `(I, J)` of the block of a cluster pair the sum of
the local matrices over all pairs of cells of this cluster pair, and zero elsewhere.  This is what the loop without masks computes.  The same holds for the contributions of the exterior.

For symmetric local matrices this needs that with a cluster pair also the reversed pair is in the list, as `symmetrizeNearFieldClusters` achieves; `one_sided` shows that this cannot be dropped.
-/

namespace PyNucleus.Props.C71

open PyNucleus.NonlocalAssembly PyNucleus.NearField
open PyNucleus.Simplex (upper)

variable {K : Type}

/-- Cluster pairs of a mesh with `nc` cells: the cells of a node are all cells with one of its dofs, the blocks are disjoint, and `union` is the union of the cells. -/
structure Blocks (cell2dof : Nat → List Int) (nc : Nat) (P : List Cluster) : Prop where
  union : ∀ C ∈ P, C.union.Nodup ∧ ∀ c, c ∈ C.union ↔ c ∈ C.cells1 ∨ c ∈ C.cells2
  cells1 : ∀ C ∈ P, ∀ c, c ∈ C.cells1 ↔ c < nc ∧ ∃ I ∈ C.dofs1, (I : Int) ∈ cell2dof c
  cells2 : ∀ C ∈ P, ∀ c, c ∈ C.cells2 ↔ c < nc ∧ ∃ I ∈ C.dofs2, (I : Int) ∈ cell2dof c
  disjoint : P.Pairwise fun C D => ∀ I J, ¬ ((I ∈ C.dofs1 ∧ J ∈ C.dofs2) ∧ (I ∈ D.dofs1 ∧ J ∈ D.dofs2))

/-- With a cluster pair also the reversed pair is in the list. -/
def Reversed (P : List Cluster) : Prop := (P.map fun C => (⟨C.dofs2, C.dofs1, C.cells2, C.cells1, C.union, C.inter⟩ : Cluster)).Perm P

/-- The local matrices of all pairs of cells of a cluster pair. -/
def inside [AddCommMonoid K] (n : Nat) (cell2dof : Nat → List Int) (value : Nat × Nat → Nat → Nat → K) (C : Cluster) (I J : Nat) : K :=
  ∑ c1 ∈ C.union.toFinset, ∑ c2 ∈ C.union.toFinset, C70.pair n cell2dof value (c1, c2) I J

private theorem toLocal [Zero K] {symCells symLocal : Bool} {n : Nat} {cell2dof : Nat → List Int} {nc : Nat} {ignored : Nat × Nat → Bool} {eval : Nat × Nat → List K}
    {value : Nat × Nat → Nat → Nat → K} (h : C70.Exact symCells symLocal n cell2dof nc ignored eval value) : Local symCells symLocal n cell2dof nc ignored eval value := by
  refine ⟨h.rows, h.eval, h.symmetric, h.ignored, fun hs c1 c2 h1 h2 p q hp hq => ?_⟩
  unfold half
  split <;> split
  · exact (h.mirror hs c1 c2 h1 h2 p q (by omega) (by omega)).2.2.2
  · have := (h.mirror hs c1 c2 h1 h2 p (q - n) (by omega) (by omega)).2.2.1
    rwa [show n + (q - n) = q by omega] at this
  · have := (h.mirror hs c1 c2 h1 h2 (p - n) q (by omega) (by omega)).2.1
    rwa [show n + (p - n) = p by omega] at this
  · have := (h.mirror hs c1 c2 h1 h2 (p - n) (q - n) (by omega) (by omega)).1
    rwa [show n + (p - n) = p by omega, show n + (q - n) = q by omega] at this

private theorem toValid {cell2dof : Nat → List Int} {nc : Nat} {P : List Cluster} (h : Blocks cell2dof nc P) (C : Cluster) (hC : C ∈ P) : Valid cell2dof nc C where
  union := (h.union C hC).2
  nodup := (h.union C hC).1
  lt := fun c hc => (((h.union C hC).2 c).1 hc).elim (fun x => ((h.cells1 C hC c).1 x).1) fun x => ((h.cells2 C hC c).1 x).1
  cells1 := fun c hc I hI hm => (h.cells1 C hC c).2 ⟨hc, I, hI, hm⟩
  cells2 := fun c hc I hI hm => (h.cells2 C hC c).2 ⟨hc, I, hI, hm⟩

private theorem lookup [AddCommMonoid K] (P : List Cluster) (hd : P.Pairwise fun C D => ∀ I J, ¬ ((I ∈ C.dofs1 ∧ J ∈ C.dofs2) ∧ (I ∈ D.dofs1 ∧ J ∈ D.dofs2))) (f : Cluster → K) (I J : Nat) :
    (∀ C ∈ P, I ∈ C.dofs1 → J ∈ C.dofs2 → (P.map fun C => if block C I J then f C else 0).sum = f C) ∧
    ((∀ C ∈ P, ¬ (I ∈ C.dofs1 ∧ J ∈ C.dofs2)) → (P.map fun C => if block C I J then f C else 0).sum = 0) := by
  have z : ∀ Q : List Cluster, (∀ C ∈ Q, ¬ (I ∈ C.dofs1 ∧ J ∈ C.dofs2)) → (Q.map fun C => if block C I J then f C else 0).sum = 0 := by
    intro Q hQ
    induction Q with
    | nil => rfl
    | cons D Q ih =>
      rw [List.map_cons, List.sum_cons, if_neg (show ¬ block D I J from hQ D (List.mem_cons_self ..)), zero_add]
      exact ih fun C hC => hQ C (List.mem_cons_of_mem _ hC)
  refine ⟨fun C hC hI hJ => ?_, z P⟩
  induction P with
  | nil => cases hC
  | cons D P ih =>
    rw [List.pairwise_cons] at hd
    rw [List.map_cons, List.sum_cons]
    rcases List.mem_cons.1 hC with rfl | hC
    · rw [if_pos ⟨hI, hJ⟩, z P fun E hE hm => hd.1 E hE I J ⟨⟨hI, hJ⟩, hm⟩, add_zero]
    · rw [if_neg (show ¬ block D I J from fun hm => hd.1 C hC I J ⟨hm, hI, hJ⟩), zero_add]
      exact ih hd.2 hC

/-- The near field assembled with masks. -/
theorem masked [Semiring K] (symCells symLocal : Bool) (n : Nat) (cell2dof : Nat → List Int) (nc : Nat) (ignored : Nat × Nat → Bool) (eval : Nat × Nat → List K) (value : Nat × Nat → Nat → Nat → K)
    (h : C70.Exact symCells symLocal n cell2dof nc ignored eval value) (maxNNZ : Nat) (P : List Cluster) (hP : Blocks cell2dof nc P) (hr : symLocal = true → Reversed P) (I J : Nat) :
    (∀ C ∈ P, I ∈ C.dofs1 → J ∈ C.dofs2 →
      assembleMasked denseAdd symCells symLocal n cell2dof ignored eval maxNNZ P (fun _ _ => 0) I J = inside n cell2dof value C I J) ∧
    ((∀ C ∈ P, ¬ (I ∈ C.dofs1 ∧ J ∈ C.dofs2)) → assembleMasked denseAdd symCells symLocal n cell2dof ignored eval maxNNZ P (fun _ _ => 0) I J = 0) := by
  rw [assembleMasked_entry (toLocal h) maxNNZ P.length P rfl (fun C hC => (hP.union C hC).2) (fun C hC => (toValid hP C hC).lt) hP.disjoint, zero_add,
    shares (toLocal h) P (toValid hP) hr]
  exact lookup P hP.disjoint (fun C => inside n cell2dof value C I J) I J

/-- The near field assembled without masks. -/
theorem filtered [Semiring K] (symCells symLocal : Bool) (n : Nat) (cell2dof : Nat → List Int) (nc : Nat) (ignored : Nat × Nat → Bool) (eval : Nat × Nat → List K) (value : Nat × Nat → Nat → Nat → K)
    (h : C70.Exact symCells symLocal n cell2dof nc ignored eval value) (hrev : symCells = true → ∀ a b, b < a → ignored (a, b) = true) (P : List Cluster) (hP : Blocks cell2dof nc P) (I J : Nat) :
    (∀ C ∈ P, I ∈ C.dofs1 → J ∈ C.dofs2 →
      assembleFiltered denseAdd symCells symLocal n cell2dof ignored eval P (fun _ _ => 0) I J = inside n cell2dof value C I J) ∧
    ((∀ C ∈ P, ¬ (I ∈ C.dofs1 ∧ J ∈ C.dofs2)) → assembleFiltered denseAdd symCells symLocal n cell2dof ignored eval P (fun _ _ => 0) I J = 0) := by
  rw [assembleFiltered_entry (toLocal h) hrev P (toValid hP), zero_add]
  exact lookup P hP.disjoint (fun C => inside n cell2dof value C I J) I J

/-- Masks do not change the matrix, for any size of the batches. -/
theorem masked_filtered [Semiring K] (symCells symLocal : Bool) (n : Nat) (cell2dof : Nat → List Int) (nc : Nat) (ignored : Nat × Nat → Bool) (eval : Nat × Nat → List K)
    (value : Nat × Nat → Nat → Nat → K) (h : C70.Exact symCells symLocal n cell2dof nc ignored eval value) (hrev : symCells = true → ∀ a b, b < a → ignored (a, b) = true) (maxNNZ : Nat)
    (P : List Cluster) (hP : Blocks cell2dof nc P) (hr : symLocal = true → Reversed P) (A : Nat → Nat → K) :
    assembleMasked denseAdd symCells symLocal n cell2dof ignored eval maxNNZ P A = assembleFiltered denseAdd symCells symLocal n cell2dof ignored eval P A := by
  funext I J
  rw [assembleMasked_entry (toLocal h) maxNNZ P.length P rfl (fun C hC => (hP.union C hC).2) (fun C hC => (toValid hP C hC).lt) hP.disjoint,
    shares (toLocal h) P (toValid hP) hr, assembleFiltered_entry (toLocal h) hrev P (toValid hP)]

/-- Cluster pairs on several ranks: the sum of the matrices of all ranks. -/
theorem ranks [Semiring K] (symCells symLocal : Bool) (n : Nat) (cell2dof : Nat → List Int) (nc : Nat) (ignored : Nat × Nat → Bool) (eval : Nat × Nat → List K) (value : Nat × Nat → Nat → Nat → K)
    (h : C70.Exact symCells symLocal n cell2dof nc ignored eval value) (maxNNZ : Nat) (Ps : List (List Cluster)) (hP : Blocks cell2dof nc Ps.flatten) (hr : symLocal = true → Reversed Ps.flatten)
    (C : Cluster) (hC : C ∈ Ps.flatten) (I J : Nat) (hI : I ∈ C.dofs1) (hJ : J ∈ C.dofs2) :
    (Ps.map fun P => assembleMasked denseAdd symCells symLocal n cell2dof ignored eval maxNNZ P (fun _ _ => 0) I J).sum = inside n cell2dof value C I J := by
  have e : (Ps.map fun P => assembleMasked denseAdd symCells symLocal n cell2dof ignored eval maxNNZ P (fun _ _ => 0) I J).sum =
      (Ps.flatten.map (share symCells symLocal n cell2dof nc value I J)).sum := by
    have sub : ∀ P ∈ Ps, ∀ C ∈ P, C ∈ Ps.flatten := fun P hP C hC => List.mem_flatten.2 ⟨P, hP, hC⟩
    have pw := (List.pairwise_flatten.1 hP.disjoint).1
    have one : ∀ P ∈ Ps, assembleMasked denseAdd symCells symLocal n cell2dof ignored eval maxNNZ P (fun _ _ => 0) I J = (P.map (share symCells symLocal n cell2dof nc value I J)).sum := by
      intro P hm
      rw [assembleMasked_entry (toLocal h) maxNNZ P.length P rfl (fun C hC => (hP.union C (sub P hm C hC)).2) (fun C hC => (toValid hP C (sub P hm C hC)).lt) (pw P hm), zero_add]
    rw [List.map_congr_left one, List.map_flatten, List.sum_flatten, List.map_map]
    rfl
  rw [e, shares (toLocal h) Ps.flatten (toValid hP) hr]
  exact (lookup Ps.flatten hP.disjoint (fun C => inside n cell2dof value C I J) I J).1 C hC hI hJ

/-- The contributions of the exterior of cluster pairs: the cells that belong to both nodes, with the surface of the union of their cells. -/
theorem exterior [Semiring K] (n : Nat) (cell2dof : Nat → List Int) (nc : Nat) (ns : List Nat → Nat) (evalExt : List Nat → Nat × Nat → List K) (valueExt : List Nat → Nat × Nat → Nat → Nat → K)
    (P : List Cluster) (hP : Blocks cell2dof nc P) (hi : ∀ C ∈ P, C.inter.Nodup ∧ ∀ c, c ∈ C.inter ↔ c ∈ C.cells1 ∧ c ∈ C.cells2)
    (hx : ∀ C ∈ P, C70.ExactExt n nc (ns C.union) (evalExt C.union) (valueExt C.union)) (hr : Reversed P) (C : Cluster) (hC : C ∈ P) (I J : Nat) (hI : I ∈ C.dofs1) (hJ : J ∈ C.dofs2) :
    clusterExterior denseAdd n cell2dof ns evalExt P (fun _ _ => 0) I J =
      ∑ c1 ∈ (Finset.range nc).filter (fun c => (∃ X ∈ C.dofs1, (X : Int) ∈ cell2dof c) ∧ ∃ X ∈ C.dofs2, (X : Int) ∈ cell2dof c),
        ∑ c2 ∈ Finset.range (ns C.union), C70.ext n cell2dof (valueExt C.union) (c1, c2) I J := by
  rw [clusterExterior_entry n cell2dof ns evalExt valueExt P (fun C hC => (hx C hC).1)
    (fun C hC a ha b hb => (hx C hC).2 a b ((hP.cells1 C hC a).1 (((hi C hC).2 a).1 ha).1).1 hb) hr, zero_add]
  refine ((lookup P hP.disjoint (fun C => (C.inter.map fun a => ∑ b ∈ Finset.range (ns C.union), extSum n cell2dof (valueExt C.union) (a, b) I J).sum) I J).1 C hC hI hJ).trans ?_
  rw [← List.sum_toFinset _ (hi C hC).1]
  refine Finset.sum_congr ?_ fun _ _ => rfl
  ext c
  rw [List.mem_toFinset, (hi C hC).2, hP.cells1 C hC, hP.cells2 C hC, Finset.mem_filter, Finset.mem_range]
  constructor
  · rintro ⟨⟨h1, h2⟩, _, h3⟩; exact ⟨h1, h2, h3⟩
  · rintro ⟨h1, h2, h3⟩; exact ⟨⟨h1, h2⟩, h1, h3⟩

/-! ## Two intervals -/

/-- Local matrices of two cells with one dof each. -/
private def value2 : Nat × Nat → Nat → Nat → Int := fun _ p q => if p = q then 1 else -1

private def eval2 : Nat × Nat → List Int := fun c => (upper 2).map fun q => value2 c q.1 q.2

private def ignored2 : Nat × Nat → Bool := fun c => decide (c.2 < c.1)

private def C01 : Cluster := ⟨[0], [1], [0], [1], [0, 1], []⟩

private def C10 : Cluster := ⟨[1], [0], [1], [0], [0, 1], []⟩

private theorem exact2 : C70.Exact true true 1 (fun c => [(c : Int)]) 2 ignored2 eval2 value2 where
  rows := fun _ _ => rfl
  eval := fun _ _ _ _ _ _ => rfl
  symmetric := fun _ c p q _ _ => by unfold value2; simp only [eq_comm]
  ignored := fun c1 c2 _ _ ho hi => by
    unfold ignored2 at hi
    rw [decide_eq_true_eq] at hi
    have := ho rfl
    dsimp only at hi
    omega
  mirror := fun _ c1 c2 _ _ p q hp hq => by
    have hp : p = 0 := by omega
    have hq : q = 0 := by omega
    subst hp hq
    unfold value2
    decide

private theorem blocks2 : Blocks (fun c => [(c : Int)]) 2 [C01, C10] where
  union := by
    intro C hC
    simp only [List.mem_cons, List.not_mem_nil, or_false] at hC
    rcases hC with rfl | rfl <;> refine ⟨by decide, fun c => ?_⟩ <;> simp [C01, C10] <;> omega
  cells1 := by
    intro C hC c
    simp only [List.mem_cons, List.not_mem_nil, or_false] at hC
    rcases hC with rfl | rfl <;> simp [C01, C10] <;> omega
  cells2 := by
    intro C hC c
    simp only [List.mem_cons, List.not_mem_nil, or_false] at hC
    rcases hC with rfl | rfl <;> simp [C01, C10] <;> omega
  disjoint := by
    rw [List.pairwise_cons]
    refine ⟨fun D hD I J h => ?_, List.pairwise_singleton _ _⟩
    rw [List.mem_singleton] at hD
    subst hD
    simp [C01, C10] at h
    omega

private theorem reversed2 : Reversed [C01, C10] := List.Perm.swap _ _ _

/-- The hypotheses hold for two intervals with the off-diagonal blocks; the entry of the block is computed in two batches. -/
example : assembleMasked denseAdd true true 1 (fun c => [(c : Int)]) ignored2 eval2 0 [C01, C10] (fun _ _ => 0) 0 1 = -2 := by
  rw [(masked true true 1 _ 2 ignored2 eval2 value2 exact2 0 [C01, C10] blocks2 (fun _ => reversed2) 0 1).1 C01 (by simp) (by decide) (by decide)]
  decide +kernel

/-- Without the reversed cluster pair the masks of symmetric local matrices miss entries of the block. -/
theorem one_sided : ∃ P : List Cluster, Blocks (fun c => [(c : Int)]) 2 P ∧
    assembleMasked denseAdd true true 1 (fun c => [(c : Int)]) ignored2 eval2 100 P (fun _ _ => 0) 1 0 ≠
      assembleFiltered denseAdd true true 1 (fun c => [(c : Int)]) ignored2 eval2 P (fun _ _ => 0) 1 0 := by
  refine ⟨[C10], ⟨fun C hC => blocks2.union C (by simp at hC; simp [hC]), fun C hC => blocks2.cells1 C (by simp at hC; simp [hC]), fun C hC => blocks2.cells2 C (by simp at hC; simp [hC]),
    List.pairwise_singleton _ _⟩, ?_⟩
  decide +kernel

end PyNucleus.Props.C71
