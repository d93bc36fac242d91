import Verif.Proof.NearField2

/-! # Sums over the cells of cluster pairs -/

namespace PyNucleus.NearField

open PyNucleus.Loops PyNucleus.NonlocalAssembly PyNucleus.SSS
open PyNucleus.Simplex (upper)

variable {K σ : Type}

/-- What is assumed about a cluster pair: the union of the cells, without repetition, and all cells of the dofs are there. -/
structure Valid (cell2dof : Nat → List Int) (nc : Nat) (C : Cluster) : Prop where
  union : ∀ c, c ∈ C.union ↔ c ∈ C.cells1 ∨ c ∈ C.cells2
  nodup : C.union.Nodup
  lt : ∀ c ∈ C.union, c < nc
  cells1 : ∀ c, c < nc → ∀ I ∈ C.dofs1, (I : Int) ∈ cell2dof c → c ∈ C.cells1
  cells2 : ∀ c, c < nc → ∀ I ∈ C.dofs2, (I : Int) ∈ cell2dof c → c ∈ C.cells2

/-- The pairs of cells that have to be visited. -/
def region (symCells : Bool) (C : Cluster) (a b : Nat) : Prop := a ∈ C.union ∧ b ∈ C.union ∧ (symCells = true → a ≤ b)

instance (symCells : Bool) (C : Cluster) (a b : Nat) : Decidable (region symCells C a b) := by unfold region; infer_instance

theorem isIn_mem {n : Nat} {dofs : List Nat} {cell2dof : Nat → List Int} {a b p : Nat} (h1 : (cell2dof a).length = n) (h2 : (cell2dof b).length = n) (hp : p < 2 * n)
    (h : isIn dofs (pairDofs cell2dof (a, b)) p = true) : ∃ I ∈ dofs, (I : Int) ∈ cell2dof a ∨ (I : Int) ∈ cell2dof b := by
  unfold isIn at h
  rw [decide_eq_true_eq] at h
  refine ⟨_, h.2, ?_⟩
  rw [Int.toNat_of_nonneg h.1]
  have : (pairDofs cell2dof (a, b)).getD p 0 ∈ pairDofs cell2dof (a, b) := by
    rw [List.getD_eq_getElem _ _ (by unfold pairDofs; rw [List.length_append]; dsimp only; omega)]
    exact List.getElem_mem _
  unfold pairDofs at this ⊢
  exact List.mem_append.1 this

theorem entered_region {symCells : Bool} {n : Nat} {cell2dof : Nat → List Int} {nc : Nat} {C : Cluster} (hC : Valid cell2dof nc C) {a b : Nat} (ha : a < nc) (hb : b < nc)
    (h1 : (cell2dof a).length = n) (h2 : (cell2dof b).length = n) {q : Nat × Nat} (hq1 : q.1 < 2 * n) (hq2 : q.2 < 2 * n) (hs : sel cell2dof C (a, b) q = true) :
    entered symCells n cell2dof C (a, b) = true ↔ region symCells C a b := by
  unfold sel at hs
  rw [Bool.and_eq_true] at hs
  have hn : nonzero n cell2dof C (a, b) = true := by
    unfold nonzero
    rw [Bool.not_eq_true', Bool.or_eq_false_iff, decide_eq_false_iff_not, decide_eq_false_iff_not, pairMask_zero _ _ _ _ h1 h2, pairMask_zero _ _ _ _ h1 h2]
    exact ⟨fun h => (by rw [h _ hq1] at hs; exact Bool.noConfusion hs.1), fun h => (by rw [h _ hq2] at hs; exact Bool.noConfusion hs.2)⟩
  unfold entered
  rw [hn, Bool.and_true, decide_eq_true_eq]
  refine ⟨fun h => mem_pairsOf hC.union h, fun ⟨hua, hub, ho⟩ => ?_⟩
  unfold pairsOf
  cases symCells
  · rw [if_neg (by simp), List.mem_flatMap]
    exact ⟨a, hua, List.mem_map.2 ⟨b, hub, rfl⟩⟩
  · rw [if_pos rfl, List.mem_flatMap]
    have ho := ho rfl
    obtain ⟨I, hI, hI'⟩ := isIn_mem h1 h2 hq1 hs.1
    obtain ⟨J, hJ, hJ'⟩ := isIn_mem h1 h2 hq2 hs.2
    have key : (a ∈ C.cells1 ∧ b ∈ C.cells2) ∨ (b ∈ C.cells1 ∧ a ∈ C.cells2) := by
      have c1 : a ∈ C.cells1 ∨ b ∈ C.cells1 := hI'.imp (hC.cells1 a ha I hI) (hC.cells1 b hb I hI)
      have c2 : a ∈ C.cells2 ∨ b ∈ C.cells2 := hJ'.imp (hC.cells2 a ha J hJ) (hC.cells2 b hb J hJ)
      have u1 := (hC.union a).1 hua
      have u2 := (hC.union b).1 hub
      tauto
    rcases key with ⟨k1, k2⟩ | ⟨k1, k2⟩
    · exact ⟨a, k1, List.mem_map.2 ⟨b, k2, if_neg (by omega)⟩⟩
    · refine ⟨b, k1, List.mem_map.2 ⟨a, k2, ?_⟩⟩
      by_cases hab : a < b
      · rw [if_pos hab]
      · have : a = b := by omega
        subst this
        rw [if_neg hab]

/-- The pair of dofs belongs to the cluster pair. -/
def block (C : Cluster) (I J : Nat) : Prop := I ∈ C.dofs1 ∧ J ∈ C.dofs2

instance (C : Cluster) (I J : Nat) : Decidable (block C I J) := by unfold block; infer_instance

/-- The part of the contribution of a pair of cells with `p ≤ q`, or with `q < p`. -/
def part [AddCommMonoid K] (n : Nat) (dofs : List Int) (M : Nat → Nat → K) (I J : Nat) (first : Bool) : K :=
  ∑ p ∈ Finset.range (2 * n), ∑ q ∈ Finset.range (2 * n), if (dofs.getD p 0 = I ∧ dofs.getD q 0 = J) ∧ decide (p ≤ q) = first then M p q else 0

theorem part_add [AddCommMonoid K] (n : Nat) (cell2dof : Nat → List Int) (value : Nat × Nat → Nat → Nat → K) (c : Nat × Nat) (I J : Nat) :
    part n (pairDofs cell2dof c) (value c) I J true + part n (pairDofs cell2dof c) (value c) I J false = pairSum n cell2dof value c I J := by
  unfold part pairSum
  rw [← Finset.sum_add_distrib]
  refine Finset.sum_congr rfl fun p _ => ?_
  rw [← Finset.sum_add_distrib]
  refine Finset.sum_congr rfl fun q _ => ?_
  by_cases h : p ≤ q
  · simp [h]
  · simp [h]

theorem sel_of_dofs {cell2dof : Nat → List Int} {C : Cluster} {c : Nat × Nat} {p q I J : Nat} (hp : (pairDofs cell2dof c).getD p 0 = (I : Int)) (hq : (pairDofs cell2dof c).getD q 0 = (J : Int)) :
    sel cell2dof C c (p, q) = true ↔ block C I J := by
  unfold sel isIn block
  rw [Bool.and_eq_true, decide_eq_true_eq, decide_eq_true_eq]
  dsimp only
  rw [hp, hq]
  simp

/-- Selected entries, if the pair of cells is visited. -/
theorem masked_region [AddCommMonoid K] {symCells symLocal : Bool} {n : Nat} {cell2dof : Nat → List Int} {nc : Nat} {C : Cluster} (hC : Valid cell2dof nc C) {a b : Nat} (ha : a < nc) (hb : b < nc)
    (h1 : (cell2dof a).length = n) (h2 : (cell2dof b).length = n) (value : Nat × Nat → Nat → Nat → K) (I J : Nat) :
    masked symLocal n (pairDofs cell2dof (a, b)) (value (a, b)) (fun q => entered symCells n cell2dof C (a, b) && sel cell2dof C (a, b) q) I J =
      if region symCells C a b then
        (if block C I J then part n (pairDofs cell2dof (a, b)) (value (a, b)) I J true else 0) +
          (if (if symLocal then block C J I else block C I J) then part n (pairDofs cell2dof (a, b)) (value (a, b)) I J false else 0)
      else 0 := by
  have e : masked symLocal n (pairDofs cell2dof (a, b)) (value (a, b)) (fun q => entered symCells n cell2dof C (a, b) && sel cell2dof C (a, b) q) I J =
      ∑ p ∈ Finset.range (2 * n), ∑ q ∈ Finset.range (2 * n), if region symCells C a b then
        ((if (((pairDofs cell2dof (a, b)).getD p 0 = (I : Int) ∧ (pairDofs cell2dof (a, b)).getD q 0 = (J : Int)) ∧ decide (p ≤ q) = true) ∧ block C I J then value (a, b) p q else 0) +
        (if (((pairDofs cell2dof (a, b)).getD p 0 = (I : Int) ∧ (pairDofs cell2dof (a, b)).getD q 0 = (J : Int)) ∧ decide (p ≤ q) = false) ∧ (if symLocal then block C J I else block C I J) then value (a, b) p q else 0))
        else 0 := by
    unfold masked
    refine Finset.sum_congr rfl fun p hp => Finset.sum_congr rfl fun q hq => ?_
    rw [Finset.mem_range] at hp hq
    by_cases hd : (pairDofs cell2dof (a, b)).getD p 0 = (I : Int) ∧ (pairDofs cell2dof (a, b)).getD q 0 = (J : Int)
    · have hk : (key symLocal p q).1 < 2 * n ∧ (key symLocal p q).2 < 2 * n := by
        unfold key
        split
        · dsimp only; omega
        · exact ⟨hp, hq⟩
      have hsel : sel cell2dof C (a, b) (key symLocal p q) = true ↔ if p ≤ q then block C I J else if symLocal then block C J I else block C I J := by
        unfold key
        by_cases hpq : p ≤ q
        · rw [if_pos hpq, min_eq_left hpq, max_eq_right hpq, ite_self]
          exact sel_of_dofs hd.1 hd.2
        · rw [if_neg hpq, min_eq_right (by omega), max_eq_left (by omega)]
          cases symLocal
          · rw [if_neg (by simp), if_neg (by simp)]; exact sel_of_dofs hd.1 hd.2
          · rw [if_pos rfl, if_pos rfl]; exact sel_of_dofs hd.2 hd.1
      have both : (entered symCells n cell2dof C (a, b) && sel cell2dof C (a, b) (key symLocal p q)) = true ↔
          region symCells C a b ∧ if p ≤ q then block C I J else if symLocal then block C J I else block C I J := by
        rw [Bool.and_eq_true, ← hsel]
        constructor
        · rintro ⟨x, y⟩; exact ⟨(entered_region hC ha hb h1 h2 hk.1 hk.2 y).1 x, y⟩
        · rintro ⟨x, y⟩; exact ⟨(entered_region hC ha hb h1 h2 hk.1 hk.2 y).2 x, y⟩
      simp only [hd, true_and, both]
      by_cases hr : region symCells C a b
      · by_cases hpq : p ≤ q
        · simp [hr, hpq]
        · simp [hr, hpq]
      · simp [hr]
    · simp only [hd, false_and, if_false, add_zero, ite_self]
  rw [e]
  by_cases hr : region symCells C a b
  · simp only [if_pos hr]
    simp only [Finset.sum_add_distrib]
    congr 1
    · by_cases hB : block C I J
      · simp only [hB, and_true, if_true]; rfl
      · simp only [hB, and_false, if_false, Finset.sum_const_zero]
    · by_cases hB : if symLocal = true then block C J I else block C I J
      · simp only [hB, and_true, if_true]; rfl
      · simp only [hB, and_false, if_false, Finset.sum_const_zero]
  · simp only [if_neg hr, Finset.sum_const_zero]

/-- Sum over the visited pairs. -/
def over [Semiring K] (symCells : Bool) (nc : Nat) (C : Cluster) (f : Nat × Nat → K) : K :=
  ∑ a ∈ Finset.range nc, ∑ b ∈ Finset.range nc, if region symCells C a b then factor symCells (a, b) * f (a, b) else 0

theorem share_eq [Semiring K] {symCells symLocal : Bool} {n : Nat} {cell2dof : Nat → List Int} {nc : Nat} {C : Cluster} (hC : Valid cell2dof nc C) (hrow : ∀ c, c < nc → (cell2dof c).length = n)
    (value : Nat × Nat → Nat → Nat → K) (I J : Nat) :
    share symCells symLocal n cell2dof nc value I J C =
      (if block C I J then over symCells nc C fun c => part n (pairDofs cell2dof c) (value c) I J true else 0) +
        (if (if symLocal then block C J I else block C I J) then over symCells nc C fun c => part n (pairDofs cell2dof c) (value c) I J false else 0) := by
  unfold share over
  have : ∀ (P : Prop) [Decidable P] (f : Nat × Nat → K), (if P then ∑ a ∈ Finset.range nc, ∑ b ∈ Finset.range nc, (if region symCells C a b then factor symCells (a, b) * f (a, b) else 0) else 0) =
      ∑ a ∈ Finset.range nc, ∑ b ∈ Finset.range nc, if region symCells C a b then factor symCells (a, b) * (if P then f (a, b) else 0) else 0 := by
    intro P _ f
    by_cases hP : P
    · simp only [if_pos hP]
    · simp only [if_neg hP, mul_zero, ite_self, Finset.sum_const_zero]
  have t1 := this (block C I J) fun c => part n (pairDofs cell2dof c) (value c) I J true
  have t2 := this (if symLocal then block C J I else block C I J) fun c => part n (pairDofs cell2dof c) (value c) I J false
  dsimp only at t1 t2 ⊢
  rw [t1, t2, ← Finset.sum_add_distrib]
  refine Finset.sum_congr rfl fun a ha => ?_
  rw [← Finset.sum_add_distrib]
  refine Finset.sum_congr rfl fun b hb => ?_
  rw [Finset.mem_range] at ha hb
  rw [masked_region hC ha hb (hrow a ha) (hrow b hb)]
  by_cases hr : region symCells C a b
  · simp only [if_pos hr, mul_add]
  · simp only [if_neg hr, mul_zero, add_zero]

/-- The cluster pair with exchanged nodes. -/
def Cluster.swap (C : Cluster) : Cluster := ⟨C.dofs2, C.dofs1, C.cells2, C.cells1, C.union, C.inter⟩

/-- Contribution of the cells of a cluster pair. -/
def near [Semiring K] (n : Nat) (cell2dof : Nat → List Int) (value : Nat × Nat → Nat → Nat → K) (I J : Nat) (C : Cluster) : K :=
  if block C I J then ∑ a ∈ C.union.toFinset, ∑ b ∈ C.union.toFinset, pairSum n cell2dof value (a, b) I J else 0

theorem over_add [Semiring K] (symCells : Bool) (nc : Nat) (C : Cluster) (f g : Nat × Nat → K) : over symCells nc C f + over symCells nc C g = over symCells nc C fun c => f c + g c := by
  unfold over
  rw [← Finset.sum_add_distrib]
  refine Finset.sum_congr rfl fun a _ => ?_
  rw [← Finset.sum_add_distrib]
  refine Finset.sum_congr rfl fun b _ => ?_
  split
  · rw [mul_add]
  · rw [add_zero]

theorem over_sum [Semiring K] (symCells : Bool) {cell2dof : Nat → List Int} {nc : Nat} {C : Cluster} (hC : Valid cell2dof nc C) (f : Nat × Nat → K)
    (hf : symCells = true → ∀ a b, a < nc → b < nc → f (b, a) = f (a, b)) : over symCells nc C f = ∑ a ∈ C.union.toFinset, ∑ b ∈ C.union.toFinset, f (a, b) := by
  have sub : ∀ g : Nat → K, ∑ a ∈ C.union.toFinset, g a = ∑ a ∈ Finset.range nc, if a ∈ C.union then g a else 0 := by
    intro g
    rw [← Finset.sum_filter]
    refine Finset.sum_congr ?_ fun _ _ => rfl
    ext x
    rw [List.mem_toFinset, Finset.mem_filter, Finset.mem_range]
    exact ⟨fun h => ⟨hC.lt x h, h⟩, fun h => h.2⟩
  have rhs : ∑ a ∈ C.union.toFinset, ∑ b ∈ C.union.toFinset, f (a, b) = ∑ a ∈ Finset.range nc, ∑ b ∈ Finset.range nc, if a ∈ C.union ∧ b ∈ C.union then f (a, b) else 0 := by
    rw [sub]
    refine Finset.sum_congr rfl fun a _ => ?_
    rw [sub]
    by_cases ha : a ∈ C.union
    · simp [ha]
    · simp [ha]
  rw [rhs]
  unfold over factor
  cases symCells
  · simp [region]
  · refine Eq.trans ?_ (triangle_sum nc fun a b => if a ∈ C.union ∧ b ∈ C.union then f (a, b) else 0)
    rw [← Finset.range_eq_Ico]
    refine Finset.sum_congr rfl fun a ha => ?_
    have : Finset.Ico a nc = (Finset.range nc).filter fun b => a ≤ b := by
      ext x; rw [Finset.mem_Ico, Finset.mem_filter, Finset.mem_range]; exact and_comm
    rw [this, Finset.sum_filter]
    refine Finset.sum_congr rfl fun b hb => ?_
    rw [Finset.mem_range] at ha hb
    by_cases hab : a ≤ b
    · by_cases hu : a ∈ C.union ∧ b ∈ C.union
      · by_cases he : a = b
        · subst he; simp [region, hu.1]
        · simp [region, hab, hu.1, hu.2, he, hf rfl a b ha hb, add_mul]
      · have h1 : ¬ region true C a b := fun h => hu ⟨h.1, h.2.1⟩
        have h2 : ¬ (b ∈ C.union ∧ a ∈ C.union) := fun h => hu ⟨h.2, h.1⟩
        rw [if_pos hab, if_neg h1, if_neg hu, if_neg h2]
        simp
    · have h1 : ¬ region true C a b := fun h => hab (h.2.2 rfl)
      rw [if_neg hab, if_neg h1]

theorem list_sum_add [AddCommMonoid K] {α : Type} (l : List α) (f g : α → K) : (l.map fun x => f x + g x).sum = (l.map f).sum + (l.map g).sum := by
  induction l with
  | nil => simp
  | cons a t ih => simp only [List.map_cons, List.sum_cons, ih]; exact add_add_add_comm ..

/-- The sum of the contributions of all cluster pairs. -/
theorem shares [Semiring K] {symCells symLocal : Bool} {n : Nat} {cell2dof : Nat → List Int} {nc : Nat} {ignored : Nat × Nat → Bool} {eval : Nat × Nat → List K}
    {value : Nat × Nat → Nat → Nat → K} (h : Local symCells symLocal n cell2dof nc ignored eval value) (Cs : List Cluster) (hC : ∀ C ∈ Cs, Valid cell2dof nc C)
    (hsym : symLocal = true → (Cs.map Cluster.swap).Perm Cs) (I J : Nat) :
    (Cs.map (share symCells symLocal n cell2dof nc value I J)).sum = (Cs.map (near n cell2dof value I J)).sum := by
  have e1 : Cs.map (share symCells symLocal n cell2dof nc value I J) = Cs.map fun C =>
      (if block C I J then over symCells nc C fun c => part n (pairDofs cell2dof c) (value c) I J true else 0) +
        (if (if symLocal then block C J I else block C I J) then over symCells nc C fun c => part n (pairDofs cell2dof c) (value c) I J false else 0) :=
    List.map_congr_left fun C hCs => share_eq (hC C hCs) h.rows value I J
  have e2 : Cs.map (near n cell2dof value I J) = Cs.map fun C =>
      (if block C I J then over symCells nc C fun c => part n (pairDofs cell2dof c) (value c) I J true else 0) +
        (if block C I J then over symCells nc C fun c => part n (pairDofs cell2dof c) (value c) I J false else 0) := by
    refine List.map_congr_left fun C hCs => ?_
    unfold near
    by_cases hB : block C I J
    · simp only [if_pos hB]
      rw [over_add, over_sum symCells (hC C hCs)]
      · refine Finset.sum_congr rfl fun a _ => Finset.sum_congr rfl fun b _ => ?_
        rw [part_add]
      · intro hs a b ha hb
        rw [part_add, part_add, pairSum_mirror n cell2dof value a b (h.rows a ha) (h.rows b hb) (h.mirror hs a b ha hb)]
    · simp only [if_neg hB, add_zero]
  rw [e1, e2, list_sum_add, list_sum_add]
  congr 1
  cases hl : symLocal
  · rfl
  · simp only [if_true]
    have : (fun C : Cluster => if block C J I then over symCells nc C fun c => part n (pairDofs cell2dof c) (value c) I J false else 0) =
        (fun C => if block C I J then over symCells nc C fun c => part n (pairDofs cell2dof c) (value c) I J false else 0) ∘ Cluster.swap := by
      funext C
      show _ = if block C.swap I J then over symCells nc C.swap _ else 0
      have hb : block C.swap I J ↔ block C J I := and_comm
      by_cases hB : block C J I
      · rw [if_pos hB, if_pos (hb.2 hB)]; rfl
      · rw [if_neg hB, if_neg (fun x => hB (hb.1 x))]
    rw [this, ← List.map_map]
    exact ((hsym hl).map _).sum_eq

/-! ## Without masks -/

theorem filter_foldl [AddCommMonoid K] (C : Cluster) (l : List (Nat × Nat × K)) : ∀ (A : Nat → Nat → K) (I J : Nat),
    l.foldl (fun A e => filterAdd denseAdd C A e.1 e.2.1 e.2.2) A I J = A I J + if block C I J then contrib l I J else 0 := by
  induction l with
  | nil => intro A I J; simp [contrib]
  | cons e t ih =>
    intro A I J
    rw [List.foldl_cons, ih]
    have : contrib (e :: t) I J = (if e.1 = I ∧ e.2.1 = J then e.2.2 else 0) + contrib t I J := by unfold contrib; rw [List.map_cons, List.sum_cons]
    rw [this]
    unfold filterAdd denseAdd
    by_cases hB : block C I J
    · rw [if_pos hB, if_pos hB, ← add_assoc]
      congr 1
      by_cases hd : e.1 = I ∧ e.2.1 = J
      · rw [if_pos (by rw [hd.1, hd.2]; exact hB), if_pos hd, if_pos ⟨hd.1.symm, hd.2.symm⟩]
      · rw [if_neg hd, add_zero]
        split
        · exact if_neg fun x : I = e.1 ∧ J = e.2.1 => hd ⟨x.1.symm, x.2.symm⟩
        · rfl
    · rw [if_neg hB, if_neg hB, add_zero, add_zero]
      by_cases hd : e.1 ∈ C.dofs1 ∧ e.2.1 ∈ C.dofs2
      · rw [if_pos hd, if_neg]
        rintro ⟨x, y⟩
        exact hB (by rw [x, y]; exact hd)
      · rw [if_neg hd]

/-- One step without masks. -/
def filterStep [Zero K] [One K] [Add K] [Mul K] (add : σ → Nat → Nat → K → σ) (symCells symLocal : Bool) (n : Nat) (cell2dof : Nat → List Int) (ignored : Nat × Nat → Bool)
    (eval : Nat × Nat → List K) (C : Cluster) (c : Nat × Nat) (A : σ) : σ :=
  if ignored c then A
  else if canSkip cell2dof c then A
  else if symLocal then addSym (filterAdd add C) (2 * n) (pairDofs cell2dof c) (eval c) (factor symCells c) A
  else addGen (filterAdd add C) (2 * n) (pairDofs cell2dof c) (eval c) (factor symCells c) A

theorem filterStep_entry [Semiring K] {symCells symLocal : Bool} {n : Nat} {cell2dof : Nat → List Int} {nc : Nat} {ignored : Nat × Nat → Bool} {eval : Nat × Nat → List K}
    {value : Nat × Nat → Nat → Nat → K} (h : Local symCells symLocal n cell2dof nc ignored eval value) (hrev : symCells = true → ∀ a b, b < a → ignored (a, b) = true)
    (C : Cluster) (a b : Nat) (ha : a < nc) (hb : b < nc) (A : Nat → Nat → K) (I J : Nat) :
    filterStep denseAdd symCells symLocal n cell2dof ignored eval C (a, b) A I J =
      A I J + if block C I J then (if symCells = true → a ≤ b then factor symCells (a, b) * pairSum n cell2dof value (a, b) I J else 0) else 0 := by
  unfold filterStep
  by_cases hi : ignored (a, b) = true
  · rw [if_pos hi]
    by_cases ho : symCells = true → a ≤ b
    · have : pairSum n cell2dof value (a, b) I J = 0 := by
        unfold pairSum
        refine Finset.sum_eq_zero fun p hp => Finset.sum_eq_zero fun q hq => ?_
        rw [h.ignored a b ha hb ho hi p q (Finset.mem_range.1 hp) (Finset.mem_range.1 hq), ite_self]
      rw [this]; simp
    · rw [if_neg ho, ite_self, add_zero]
  rw [if_neg hi]
  have ho : symCells = true → a ≤ b := fun hs => by
    by_contra hlt
    exact hi (hrev hs a b (by omega))
  rw [if_pos ho]
  by_cases hk : canSkip cell2dof (a, b) = true
  · rw [if_pos hk, pairSum_skip n cell2dof value (a, b) I J (by unfold pairDofs; rw [List.length_append]; dsimp only; rw [h.rows a ha, h.rows b hb]; omega) hk]; simp
  rw [if_neg hk, h.eval a b ha hb ho (by simpa using hi)]
  unfold flat
  have hc := contrib_pair symLocal n cell2dof value ((a, b), symCells && decide (a ≠ b)) (fun hs => h.symmetric hs _) I J
  unfold pairItems at hc
  unfold factor
  cases hl : symLocal
  · rw [hl, if_neg (by simp)] at hc
    rw [if_neg (by simp), if_neg (by simp), addGen_eq, filter_foldl]
    congr 1
    split
    · exact hc
    · rfl
  · rw [hl, if_pos rfl] at hc
    rw [if_pos rfl, if_pos rfl, addSym_eq, filter_foldl]
    congr 1
    split
    · exact hc
    · rfl

theorem foldl_entry [AddCommMonoid K] {α : Type} (l : List α) (step : (Nat → Nat → K) → α → Nat → Nat → K) (g : α → K) (I J : Nat) (h : ∀ x ∈ l, ∀ A, step A x I J = A I J + g x) :
    ∀ A, l.foldl step A I J = A I J + (l.map g).sum := by
  induction l with
  | nil => intro A; simp
  | cons a t ih =>
    intro A
    rw [List.foldl_cons, ih (fun x hx => h x (List.mem_cons_of_mem _ hx)), h a (List.mem_cons_self ..), List.map_cons, List.sum_cons, add_assoc]

theorem assembleFiltered_entry [Semiring K] {symCells symLocal : Bool} {n : Nat} {cell2dof : Nat → List Int} {nc : Nat} {ignored : Nat × Nat → Bool} {eval : Nat × Nat → List K}
    {value : Nat × Nat → Nat → Nat → K} (h : Local symCells symLocal n cell2dof nc ignored eval value) (hrev : symCells = true → ∀ a b, b < a → ignored (a, b) = true)
    (Cs : List Cluster) (hC : ∀ C ∈ Cs, Valid cell2dof nc C) (A : Nat → Nat → K) (I J : Nat) :
    assembleFiltered denseAdd symCells symLocal n cell2dof ignored eval Cs A I J = A I J + (Cs.map (near n cell2dof value I J)).sum := by
  unfold assembleFiltered
  refine foldl_entry Cs _ _ I J (fun C hCs A => ?_) A
  have hv := hC C hCs
  rw [foldl_entry C.union _ (fun a => (C.union.map fun b => if block C I J then (if symCells = true → a ≤ b then factor symCells (a, b) * pairSum n cell2dof value (a, b) I J else 0) else 0).sum) I J]
  · congr 1
    unfold near
    by_cases hB : block C I J
    · rw [if_pos hB, ← over_sum symCells hv fun c => pairSum n cell2dof value c I J]
      · simp only [if_pos hB]
        rw [← List.sum_toFinset _ hv.nodup]
        unfold over
        have sub : ∀ (g : Nat → K), (∀ a, a ∉ C.union → g a = 0) → ∑ a ∈ C.union.toFinset, g a = ∑ a ∈ Finset.range nc, g a := fun g hg =>
          Finset.sum_subset (fun x hx => Finset.mem_range.2 (hv.lt x (List.mem_toFinset.1 hx))) fun x _ hx => hg x fun hm => hx (List.mem_toFinset.2 hm)
        rw [← sub _ fun a ha => Finset.sum_eq_zero fun b _ => if_neg fun hr => ha hr.1]
        refine Finset.sum_congr rfl fun a ha => ?_
        rw [← List.sum_toFinset _ hv.nodup, ← sub _ fun b hb => if_neg fun hr => hb hr.2.1]
        refine Finset.sum_congr rfl fun b hb => ?_
        have : region symCells C a b ↔ (symCells = true → a ≤ b) := ⟨fun hr => hr.2.2, fun ho => ⟨List.mem_toFinset.1 ha, List.mem_toFinset.1 hb, ho⟩⟩
        simp only [this]
      · intro hs a b ha hb
        exact pairSum_mirror n cell2dof value a b (h.rows a ha) (h.rows b hb) (h.mirror hs a b ha hb) I J
    · simp only [if_neg hB]
      simp
  · intro a ha A
    refine foldl_entry C.union _ _ I J (fun b hb A => ?_) A
    exact filterStep_entry h hrev C a b (hv.lt a ha) (hv.lt b hb) A I J

end PyNucleus.NearField
