import Verif.Proof.LoadVector
import Verif.Props.C67

/-!
# C68: assembly of right-hand sides

Integrals over a cell are volume times mean value; a function on the cell is a polynomial in the barycentric coordinates.
-/

namespace PyNucleus.Props.C68

open PyNucleus.SimplexGeometry PyNucleus.Quadrature PyNucleus.ShapeFunctions PyNucleus.LoadVector
open PyNucleus.Props.C56 (IsSqrt)
open PyNucleus.Props.C67 (Volume)

variable {K : Type} [Field K]

/-- `φ k` is the polynomial of the `k`-th local shape function. -/
def IsShape (p d : Nat) (φ : Nat → MvPolynomial (Fin (d + 1)) K) : Prop :=
  ∀ k, k < (localShapeFunctions p d).length → ∀ lam : List K, MvPolynomial.eval (fun i : Fin (d + 1) => lam.getD i 0) (φ k) = ((localShapeFunctions p d).getD k .p0).eval lam

/-- Supported dimensions of space and mesh. -/
def Dims (dim mdim : Nat) : Prop := (dim = mdim ∧ 1 ≤ dim ∧ dim ≤ 3) ∨ (dim = 2 ∧ mdim = 1) ∨ (dim = 3 ∧ mdim = 2)

/-- Sum over the cells of the local values of the dof `I`. -/
def total {L C : Type} [AddCommMonoid L] (n : Nat) (cells : List C) (dofs : C → List Int) (val : C → Nat → L) (I : Nat) : L :=
  (cells.map fun c => ∑ k ∈ Finset.range n, if (dofs c).getD k 0 = (I : Int) then val c k else 0).sum

/-- The finite element function with the values `u` of the dofs on a cell; boundary dofs are zero. -/
noncomputable def feFunction (p d : Nat) (φ : Nat → MvPolynomial (Fin (d + 1)) K) (dofs : List Int) (u : List K) : MvPolynomial (Fin (d + 1)) K :=
  ∑ m ∈ Finset.range (localShapeFunctions p d).length, MvPolynomial.C (if 0 ≤ dofs.getD m 0 then u.getD (dofs.getD m 0).toNat 0 else 0) * φ m

theorem shape_exists [CharZero K] (p d : Nat) (hp : p ≤ 3) (h1 : 1 ≤ d) (h3 : d ≤ 3) : ∃ φ : Nat → MvPolynomial (Fin (d + 1)) K, IsShape p d φ := by
  let X : Nat → MvPolynomial (Fin (d + 1)) K := fun v => if h : v < d + 1 then MvPolynomial.X ⟨v, h⟩ else 0
  have hlt : ∀ φ ∈ localShapeFunctions p d, ∀ lam : List K, φ.eval lam = φ.eval (lam.take (d + 1)) := by
    have hg : ∀ (lam : List K) v, v < d + 1 → (lam.take (d + 1)).getD v 0 = lam.getD v 0 := fun lam v hv => by
      rw [List.getD_eq_getElem?_getD, List.getElem?_take_of_lt hv, ← List.getD_eq_getElem?_getD]
    intro φ hφ lam
    revert hφ
    interval_cases p <;> interval_cases d <;> intro hφ <;>
      simp only [localShapeFunctions, List.range_succ, List.range_zero, List.nil_append, List.cons_append, List.map_cons, List.map_nil, List.mem_cons, List.not_mem_nil, or_false] at hφ <;>
      rcases hφ with rfl | rfl | rfl | rfl | rfl | rfl | rfl | rfl | rfl | rfl | rfl | rfl | rfl | rfl | rfl | rfl | rfl | rfl | rfl | rfl <;>
      simp only [Shape.eval] <;> (repeat rw [hg _ _ (by omega)])
  refine ⟨fun k => Restriction.shapePoly X ((localShapeFunctions p d).getD k .p0), fun k hk lam => ?_⟩
  rw [Restriction.shapePoly_eval X _ (lam.take (d + 1)) (fun v => ?_), ← hlt _ (by rw [List.getD_eq_getElem _ _ hk]; exact List.getElem_mem hk)]
  dsimp only [X]
  split
  · rename_i h
    rw [MvPolynomial.eval_X, List.getD_eq_getElem?_getD, List.getD_eq_getElem?_getD, List.getElem?_take_of_lt h]
  · rename_i h
    rw [map_zero, List.getD_eq_default _ _ (by rw [List.length_take]; omega)]

/-- The loop over the nodes gives the integral of the product with a shape function. -/
theorem cell_exact [CharZero K] (p mdim q a : Nat) (hp : p ≤ 3) (h1 : 1 ≤ mdim) (h3 : mdim ≤ 3) (R : Rule K) (hR : ExactTo mdim q R) (φ : Nat → MvPolynomial (Fin (mdim + 1)) K) (hφ : IsShape p mdim φ)
    (G : MvPolynomial (Fin (mdim + 1)) K) (hG : G.totalDegree ≤ a) (hq : a + p ≤ q) (vol : K) (fvals : List K)
    (hf : ∀ j, j < R.length → fvals.getD j 0 = MvPolynomial.eval (fun i : Fin (mdim + 1) => (R.getD j ([], 0)).1.getD i 0) G) (k : Nat) (hk : k < (localShapeFunctions p mdim).length) :
    ∑ j ∈ Finset.range (R.map Prod.snd).length, (vol * (R.map Prod.snd).getD j 0 * phi p mdim R k j) • fvals.getD j 0 = vol * mean K mdim (G * φ k) := by
  rw [List.length_map, sum_rule R _ (fun r => vol * (r.2 * MvPolynomial.eval (fun i : Fin (mdim + 1) => r.1.getD i 0) (G * φ k))) (fun j hj => by
    rw [weights_getD R j hj, hf j hj, map_mul, hφ k hk]
    unfold phi
    rw [smul_eq_mul]
    ring), sum_mul_left, hR.exact _ ((Restriction.degree_mul hG (shape_degree p mdim hp h1 h3 k hk (φ k) (hφ k hk))).trans hq)]

section
variable [LinearOrder K] [IsStrictOrderedRing K]

theorem volume_some (sqrt : K → K) (hs : IsSqrt sqrt) (dim mdim : Nat) (hd : Dims dim mdim) :
    ∃ vol : Coords K → K, (∀ S, Volume dim mdim S (vol S)) ∧ ∀ S, simplexVolume sqrt dim mdim S = some (vol S) := by
  have hv : ∀ S : Coords K, ∃ v, simplexVolume sqrt dim mdim S = some v := fun S => by
    unfold simplexVolume
    dsimp only
    rcases hd with ⟨rfl, h1, h3⟩ | ⟨rfl, rfl⟩ | ⟨rfl, rfl⟩
    · interval_cases dim <;> exact ⟨_, rfl⟩
    · exact ⟨_, rfl⟩
    · exact ⟨_, rfl⟩
  choose vol hvol using hv
  exact ⟨vol, fun S => C67.volume_spec sqrt hs dim mdim S _ (hvol S), hvol⟩

/-- `assembleRHS(fun, dm, qr)` and `assembleRHScomplex` for a polynomial: entries are the integrals of the function times the basis functions. -/
theorem rhs_exact (sqrt : K → K) (hs : IsSqrt sqrt) (dim mdim p q : Nat) (hd : Dims dim mdim) (hp : p ≤ 3) (R : Rule K) (hR : ExactTo mdim q R) (φ : Nat → MvPolynomial (Fin (mdim + 1)) K)
    (hφ : IsShape p mdim φ) (f : MvPolynomial (Fin dim) K) (hf : f.totalDegree + p ≤ q) :
    ∃ vol : Coords K → K, (∀ S, Volume dim mdim S (vol S)) ∧ ∀ (cells : List (Coords K × List Int)) (numDofs : Nat), ∃ b : List K,
      rhs sqrt dim mdim p R (fun x => MvPolynomial.eval (fun m : Fin dim => x m) f) cells numDofs = some b ∧
      rhsComplex sqrt dim mdim p R (fun x => MvPolynomial.eval (fun m : Fin dim => x m) f) cells numDofs = some b ∧ b.length = numDofs ∧
      ∀ I, I < numDofs → b.getD I 0 = total (localShapeFunctions p mdim).length cells Prod.snd (fun c k => vol c.1 * mean K mdim (pullback mdim dim c.1 f * φ k)) I := by
  obtain ⟨vol, hvol, hsome⟩ := volume_some sqrt hs dim mdim hd
  refine ⟨vol, hvol, fun cells numDofs => ?_⟩
  have h1 : 1 ≤ mdim := by unfold Dims at hd; omega
  have h3 : mdim ≤ 3 := by unfold Dims at hd; omega
  have key : ∀ PHI : Nat → Nat → K, (∀ k j, k < (localShapeFunctions p mdim).length → j < R.length → PHI k j = phi p mdim R k j) → ∃ b : List K,
      assemble sqrt dim mdim (localShapeFunctions p mdim).length R PHI (fun x => MvPolynomial.eval (fun m : Fin dim => x m) f) cells numDofs = some b ∧ b.length = numDofs ∧
      ∀ I, I < numDofs → b.getD I 0 = total (localShapeFunctions p mdim).length cells Prod.snd (fun c k => vol c.1 * mean K mdim (pullback mdim dim c.1 f * φ k)) I := by
    intro PHI hPHI
    unfold assemble
    obtain ⟨b, e1, e2, e3⟩ := cells_spec cells (fun c => simplexVolume sqrt dim mdim c.1) (fun c => vol c.1) (fun c _ => hsome c.1)
      (fun v c data => addCell (localShapeFunctions p mdim).length c.2 (R.map Prod.snd) v PHI (Quadrature.evalFun mdim R (fun x => MvPolynomial.eval (fun m : Fin dim => x m) f) c.1) data)
      (fun c I => ∑ k ∈ Finset.range (localShapeFunctions p mdim).length, if c.2.getD k 0 = (I : Int) then vol c.1 * mean K mdim (pullback mdim dim c.1 f * φ k) else 0) numDofs
      (fun c _ data hl => by
        obtain ⟨a, b⟩ := addCell_spec (localShapeFunctions p mdim).length c.2 (R.map Prod.snd) (vol c.1) PHI (Quadrature.evalFun mdim R (fun x => MvPolynomial.eval (fun m : Fin dim => x m) f) c.1) data numDofs hl
        refine ⟨a, fun I hI => ?_⟩
        rw [b I hI]
        congr 1
        refine Finset.sum_congr rfl fun k hk => ?_
        have hk := Finset.mem_range.1 hk
        congr 1
        rw [← cell_exact p mdim q f.totalDegree hp h1 h3 R hR φ hφ _ (pullback_degree mdim dim c.1 f) hf (vol c.1) (Quadrature.evalFun mdim R (fun x => MvPolynomial.eval (fun m : Fin dim => x m) f) c.1) (fun j hj => by
          rw [pullback_eval]
          unfold Quadrature.evalFun
          rw [List.getD_eq_getElem _ _ (by simpa using hj), List.getElem_map, List.getD_eq_getElem _ _ hj]) k hk]
        refine Finset.sum_congr rfl fun j hj => ?_
        rw [hPHI k j hk (by simpa using hj)]) (List.replicate numDofs 0) (by simp)
    exact ⟨b, e1, e2, fun I hI => by rw [e3 I hI, replicate_zero, zero_add]; rfl⟩
  obtain ⟨b, e1, e2, e3⟩ := key (phiStrided p mdim R) fun k j hk hj => phiStrided_eq p mdim hp h1 h3 R (fun r hr => (hR.nodes r hr).1) k j hk hj
  obtain ⟨c, f1, f2, f3⟩ := key (phi p mdim R) fun k j _ _ => rfl
  refine ⟨b, e1, ?_, e2, e3⟩
  unfold rhsComplex
  rw [f1]
  congr 1
  refine List.ext_getElem (by omega) fun I h h' => ?_
  rw [← List.getD_eq_getElem _ 0 h, ← List.getD_eq_getElem _ 0 h', e3 I (by omega), f3 I (by omega)]

end

theorem feFunction_degree [CharZero K] (p mdim : Nat) (hp : p ≤ 3) (h1 : 1 ≤ mdim) (h3 : mdim ≤ 3) (φ : Nat → MvPolynomial (Fin (mdim + 1)) K) (hφ : IsShape p mdim φ) (dofs : List Int) (u : List K) :
    (feFunction p mdim φ dofs u).totalDegree ≤ p :=
  MvPolynomial.totalDegree_finsetSum_le fun m hm => Restriction.degree_C_mul _ (shape_degree p mdim hp h1 h3 m (Finset.mem_range.1 hm) (φ m) (hφ m (Finset.mem_range.1 hm)))

theorem feFunction_values (p mdim : Nat) (R : Rule K) (φ : Nat → MvPolynomial (Fin (mdim + 1)) K) (hφ : IsShape p mdim φ) (dofs : List Int) (u : List K) (j : Nat) (hj : j < R.length) :
    (feValues (localShapeFunctions p mdim).length dofs u (phi p mdim R) R.length).getD j 0 =
      MvPolynomial.eval (fun i : Fin (mdim + 1) => (R.getD j ([], 0)).1.getD i 0) (feFunction p mdim φ dofs u) := by
  rw [(feValues_spec _ dofs u _ R.length).2 j hj]
  unfold feFunction
  rw [map_sum]
  refine Finset.sum_congr rfl fun m hm => ?_
  rw [map_mul, MvPolynomial.eval_C, hφ m (Finset.mem_range.1 hm)]
  rfl

theorem fromFE_sum [CharZero K] (volume : Coords K → Option K) (vol : Coords K → K) (p1 p2 mdim q : Nat) (h1 : 1 ≤ mdim) (h3 : mdim ≤ 3) (hp1 : p1 ≤ 3) (hp2 : p2 ≤ 3) (R : Rule K)
    (hR : ExactTo mdim q R) (φ ψ : Nat → MvPolynomial (Fin (mdim + 1)) K) (hφ : IsShape p1 mdim φ) (hψ : IsShape p2 mdim ψ) (hq : p1 + p2 ≤ q) (cells : List (Coords K × List Int × List Int))
    (hv : ∀ c ∈ cells, volume c.1 = some (vol c.1)) (N : Nat) (u : List K) :
    ∃ b : List K, fromFE volume p1 p2 mdim R cells N u = some b ∧ b.length = N ∧
      ∀ I, I < N → b.getD I 0 = total (localShapeFunctions p2 mdim).length cells (fun c => c.2.2) (fun c k => vol c.1 * mean K mdim (feFunction p1 mdim φ c.2.1 u * ψ k)) I := by
  unfold fromFE
  obtain ⟨b, e1, e2, e3⟩ := cells_spec cells (fun c => volume c.1) (fun c => vol c.1) hv
    (fun v c data => addCell (localShapeFunctions p2 mdim).length c.2.2 (R.map Prod.snd) v (phi p2 mdim R)
      (feValues (localShapeFunctions p1 mdim).length c.2.1 u (phi p1 mdim R) R.length) data)
    (fun c I => ∑ k ∈ Finset.range (localShapeFunctions p2 mdim).length, if c.2.2.getD k 0 = (I : Int) then vol c.1 * mean K mdim (feFunction p1 mdim φ c.2.1 u * ψ k) else 0) N
    (fun c _ data hl => by
      obtain ⟨a, b⟩ := addCell_spec (localShapeFunctions p2 mdim).length c.2.2 (R.map Prod.snd) (vol c.1) (phi p2 mdim R)
        (feValues (localShapeFunctions p1 mdim).length c.2.1 u (phi p1 mdim R) R.length) data N hl
      refine ⟨a, fun I hI => ?_⟩
      rw [b I hI]
      congr 1
      refine Finset.sum_congr rfl fun k hk => ?_
      congr 1
      exact cell_exact p2 mdim q p1 hp2 h1 h3 R hR ψ hψ _ (feFunction_degree p1 mdim hp1 h1 h3 φ hφ c.2.1 u) hq (vol c.1) _
        (fun j hj => feFunction_values p1 mdim R φ hφ c.2.1 u j hj) k (Finset.mem_range.1 hk)) (List.replicate N 0) (by simp)
  exact ⟨b, e1, e2, fun I hI => by rw [e3 I hI, replicate_zero, zero_add]; rfl⟩

/-- Components of the values can be taken before or after `assembleRHScomplex`, in particular the real and imaginary part. -/
theorem complex_parts [LinearOrder K] {L M : Type} [AddCommMonoid L] [Module K L] [AddCommMonoid M] [Module K M] (ℓ : L →ₗ[K] M) (sqrt : K → K) (dim mdim p : Nat) (R : Rule K) (f : Vec K → L)
    (cells : List (Coords K × List Int)) (numDofs : Nat) :
    (rhsComplex sqrt dim mdim p R f cells numDofs).map (List.map ℓ) = rhsComplex sqrt dim mdim p R (fun x => ℓ (f x)) cells numDofs := by
  have hget : ∀ (l : List L) j, ℓ (l.getD j 0) = (l.map ℓ).getD j 0 := fun l j => by
    by_cases h : j < l.length
    · rw [List.getD_eq_getElem _ _ h, List.getD_eq_getElem _ _ (by simpa using h), List.getElem_map]
    · rw [List.getD_eq_default _ _ (by omega), List.getD_eq_default _ _ (by simp; omega), map_zero]
  have hmod : ∀ (l : List L) k x, (l.modify k (· + x)).map ℓ = (l.map ℓ).modify k (· + ℓ x) := fun l k x => by
    refine List.ext_getElem (by simp) fun j h h' => ?_
    rw [List.getElem_map, List.getElem_modify, List.getElem_modify, List.getElem_map]
    split
    · rw [map_add]
    · rfl
  have hfor : ∀ (n : Nat) (B : List L → Nat → List L) (C : List M → Nat → List M), (∀ d k, (B d k).map ℓ = C (d.map ℓ) k) → ∀ d, (Loops.forRange 0 n d B).map ℓ = Loops.forRange 0 n (d.map ℓ) C := by
    intro n B C h d
    induction n with
    | zero => rfl
    | succ n ih => rw [Loops.forRange_succ, Loops.forRange_succ, h, ih]
  have hcell : ∀ (n : Nat) dofs (w : List K) v PHI (fv d : List L), (addCell n dofs w v PHI fv d).map ℓ = addCell n dofs w v PHI (fv.map ℓ) (d.map ℓ) := by
    intro n dofs w v PHI fv d
    unfold addCell
    refine hfor n _ _ (fun d k => ?_) d
    dsimp only
    split
    · rfl
    · refine hfor _ _ _ (fun d j => ?_) d
      rw [hmod, map_smul, hget]
  unfold rhsComplex assemble
  have h0 : (List.replicate numDofs (0 : M)) = (List.replicate numDofs (0 : L)).map ℓ := by rw [List.map_replicate, map_zero]
  rw [h0]
  generalize List.replicate numDofs (0 : L) = d
  induction cells generalizing d with
  | nil => rfl
  | cons c t ih =>
    rw [List.foldlM_cons, List.foldlM_cons]
    cases simplexVolume sqrt dim mdim c.1 with
    | none => rfl
    | some v =>
      simp only [Option.map_some, Option.bind_eq_bind, Option.bind_some]
      have he : (Quadrature.evalFun mdim R f c.1).map ℓ = Quadrature.evalFun mdim R (fun x => ℓ (f x)) c.1 := by
        unfold Quadrature.evalFun
        rw [List.map_map]
        rfl
      rw [ih, hcell, he]

/-- The default rule is exact for the product of two functions of the space, except for quadratic elements in three dimensions. -/
theorem default_exact [CharZero K] (pRoots : Nat → List (K × K)) (jsRoots : Nat → Nat → Nat → List (K × K)) (table : Nat → Nat → Rule K) (s : K) (hs : s ^ 2 = 15) (p dim mdim : Nat) (hd : Dims dim mdim)
    (hL : ∀ k, IsLegendre k (pRoots k)) (hJ : ∀ k, IsJacobi k 1 1 (jsRoots k 1 1))
    (hT : 2 ≤ mdim → (∀ r ∈ table (2 * p + 2) mdim, r.1.length = mdim + 1 ∧ r.1.sum = 1) ∧ ∀ q : MvPolynomial (Fin (mdim + 1)) K, q.totalDegree ≤ 2 * p + 2 →
      ((table (2 * p + 2) mdim).map fun r => r.2 * MvPolynomial.eval (fun i : Fin (mdim + 1) => r.1.getD i 0) q).sum = 2 ^ mdim / mdim.factorial * mean K mdim q) :
    ∃ R q, defaultRule pRoots jsRoots table s p dim mdim = some R ∧ ExactTo mdim q R ∧ (¬ (dim = 3 ∧ mdim = 3 ∧ p = 2) → 2 * p ≤ q) := by
  have last : ∃ R q, xiaoGimbutas jsRoots table (2 * p + 2) mdim = some R ∧ ExactTo mdim q R ∧ (¬ (dim = 3 ∧ mdim = 3 ∧ p = 2) → 2 * p ≤ q) := by
    obtain ⟨R, h, e⟩ := C67.xiaoGimbutas_exact jsRoots table (2 * p + 2) mdim (by unfold Dims at hd; omega) (fun d hd1 h1 => hJ _) hT
    exact ⟨R, _, h, e, fun _ => by omega⟩
  unfold defaultRule
  dsimp only
  split
  · rename_i he
    split
    · rename_i h1
      subst h1
      split
      · obtain ⟨R, h, e⟩ := (C67.gauss1D_exact pRoots 3).1 (by omega) (hL _)
        exact ⟨R, 3, h, e, fun _ => by omega⟩
      split
      · obtain ⟨R, h, e⟩ := (C67.gauss1D_exact pRoots 5).1 (by omega) (hL _)
        exact ⟨R, 5, h, e, fun _ => by omega⟩
      · exact last
    split
    · rename_i h1
      subst h1
      split
      · obtain ⟨R, h, e⟩ := (C67.gauss2D_exact s hs 2).1 (by omega)
        exact ⟨R, 2, h, e, fun _ => by omega⟩
      split
      · obtain ⟨R, h, e⟩ := (C67.gauss2D_exact s hs 5).1 (by omega)
        exact ⟨R, 5, h, e, fun _ => by omega⟩
      · exact last
    split
    · rename_i h1
      subst h1
      split
      · obtain ⟨R, h, e⟩ := (C67.gauss3D_exact (K := K) 3).1 rfl
        exact ⟨R, 3, h, e, fun _ => by omega⟩
      · exact last
    · unfold Dims at hd; omega
  · exact last

section
variable [LinearOrder K] [IsStrictOrderedRing K]

/-- `assembleRHSfromFEfunction` with a given rule is the product of the mass matrix of the two spaces with the vector. -/
theorem fromFE_exact (sqrt : K → K) (hs : IsSqrt sqrt) (dim mdim p1 p2 q : Nat) (hd : Dims dim mdim) (hp1 : p1 ≤ 3) (hp2 : p2 ≤ 3) (R : Rule K) (hR : ExactTo mdim q R)
    (φ ψ : Nat → MvPolynomial (Fin (mdim + 1)) K) (hφ : IsShape p1 mdim φ) (hψ : IsShape p2 mdim ψ) (hq : p1 + p2 ≤ q) :
    ∃ vol : Coords K → K, (∀ S, Volume dim mdim S (vol S)) ∧ ∀ (cells : List (Coords K × List Int × List Int)) (N : Nat) (u : List K), ∃ b : List K,
      fromFEGiven sqrt dim p1 p2 mdim R cells N u = some b ∧ b.length = N ∧
      ∀ I, I < N → b.getD I 0 = total (localShapeFunctions p2 mdim).length cells (fun c => c.2.2) (fun c k => vol c.1 * mean K mdim (feFunction p1 mdim φ c.2.1 u * ψ k)) I := by
  obtain ⟨vol, hvol, hsome⟩ := volume_some sqrt hs dim mdim hd
  exact ⟨vol, hvol, fun cells N u => fromFE_sum _ vol p1 p2 mdim q (by unfold Dims at hd; omega) (by unfold Dims at hd; omega) hp1 hp2 R hR φ ψ hφ hψ hq cells (fun c _ => hsome c.1) N u⟩

end

section
variable [LinearOrder K] [IsStrictOrderedRing K]

theorem volume_full (dim : Nat) (h1 : 1 ≤ dim) (h3 : dim ≤ 3) : ∃ vol : Coords K → K, (∀ S, Volume dim dim S (vol S)) ∧ ∀ S, volumeManifold dim S = some (vol S) := by
  have hv : ∀ S : Coords K, ∃ v, volumeManifold dim S = some v ∧ Volume dim dim S v := fun S => by
    obtain ⟨v1, v2, v3⟩ := C56.volume S
    unfold volumeManifold Volume
    dsimp only
    interval_cases dim
    · refine ⟨_, rfl, abs_nonneg _, Or.inr (Or.inl ⟨rfl, by omega, by omega, ?_⟩)⟩
      have := v1.1
      unfold simplexVolume1D at this
      simpa using this
    · refine ⟨_, rfl, by unfold volume2Dnew; positivity, Or.inr (Or.inl ⟨rfl, by omega, by omega, ?_⟩)⟩
      have := v2.1
      unfold simplexVolume2D at this
      norm_num [Nat.factorial]
      exact this
    · refine ⟨_, rfl, by unfold volume3Dnew; positivity, Or.inr (Or.inl ⟨rfl, by omega, by omega, ?_⟩)⟩
      have := v3.1
      unfold simplexVolume3D at this
      norm_num [Nat.factorial]
      exact this
  choose vol hvol using hv
  exact ⟨vol, fun S => (hvol S).2, fun S => (hvol S).1⟩

/-- Order of the default rule of `assembleRHSfromFEfunction`. -/
def fromOrder (dim : Nat) : Nat := if dim = 2 then 2 else 3

/-- `assembleRHSfromFEfunction` without rule, on meshes of full dimension, for low orders. -/
theorem fromFE_default_partial (pRoots : Nat → List (K × K)) (s : K) (hs : s ^ 2 = 15) (hL : IsLegendre 2 (pRoots 2)) (dim p1 p2 : Nat) (h1 : 1 ≤ dim) (h3 : dim ≤ 3)
    (hp : p1 + p2 ≤ fromOrder dim) (φ ψ : Nat → MvPolynomial (Fin (dim + 1)) K) (hφ : IsShape p1 dim φ) (hψ : IsShape p2 dim ψ) :
    ∃ vol : Coords K → K, (∀ S, Volume dim dim S (vol S)) ∧ ∀ (cells : List (Coords K × List Int × List Int)) (N : Nat) (u : List K), ∃ b : List K,
      fromFEDefault pRoots s p1 p2 dim cells N u = some b ∧ b.length = N ∧
      ∀ I, I < N → b.getD I 0 = total (localShapeFunctions p2 dim).length cells (fun c => c.2.2) (fun c k => vol c.1 * mean K dim (feFunction p1 dim φ c.2.1 u * ψ k)) I := by
  obtain ⟨vol, hvol, hsome⟩ := volume_full (K := K) dim h1 h3
  refine ⟨vol, hvol, fun cells N u => ?_⟩
  have hR : ∃ R, (if dim = 1 then gauss1D pRoots 3 else if dim = 2 then gauss2D s 2 else if dim = 3 then gauss3D 3 else none) = some R ∧ ExactTo dim (fromOrder dim) R := by
    interval_cases dim
    · exact (C67.gauss1D_exact pRoots 3).1 (by omega) hL
    · exact (C67.gauss2D_exact s hs 2).1 (by omega)
    · exact (C67.gauss3D_exact 3).1 rfl
  obtain ⟨R, hR, he⟩ := hR
  unfold fromFEDefault
  rw [hR]
  have : fromOrder dim ≤ 3 := by unfold fromOrder; split <;> omega
  exact fromFE_sum _ vol p1 p2 dim _ h1 h3 (by omega) (by omega) R he φ ψ hφ hψ hp cells (fun c _ => hsome c.1) N u

/-- `assembleNonlinearity` for polynomials of the values of the inputs, when the rule is exact for the composition times a basis function. -/
theorem nonlinearity_exact (dim p q r n : Nat) (h1 : 1 ≤ dim) (h3 : dim ≤ 3) (hp : p ≤ 3) (R : Rule K) (hR : ExactTo dim q R) (φ : Nat → MvPolynomial (Fin (dim + 1)) K) (hφ : IsShape p dim φ)
    (F : List (MvPolynomial (Fin n) K)) (hF : ∀ f ∈ F, f.totalDegree ≤ r) (hq : r * p + p ≤ q) :
    ∃ vol : Coords K → K, (∀ S, Volume dim dim S (vol S)) ∧ ∀ (cells : List (Coords K × List Int)) (N : Nat) (U : List (List K)), U.length = n → ∃ D : List (List K),
      nonlinearity R p dim (fun x => F.map fun f => MvPolynomial.eval (fun i : Fin n => x.getD i 0) f) F.length cells N U = some D ∧ D.length = F.length ∧
      ∀ o (ho : o < F.length), (D.getD o []).length = N ∧ ∀ I, I < N → (D.getD o []).getD I 0 =
        total (localShapeFunctions p dim).length cells Prod.snd
          (fun c k => vol c.1 * mean K dim (MvPolynomial.bind₁ (fun i : Fin n => feFunction p dim φ c.2 (U.getD i [])) F[o] * φ k)) I := by
  obtain ⟨vol, hvol, hsome⟩ := volume_full (K := K) dim h1 h3
  refine ⟨vol, hvol, fun cells N U hU => ?_⟩
  set G : Coords K × List Int → Nat → Nat → K := fun c o I => if ho : o < F.length then ∑ k ∈ Finset.range (localShapeFunctions p dim).length, if c.2.getD k 0 = (I : Int) then
    vol c.1 * mean K dim (MvPolynomial.bind₁ (fun i : Fin n => feFunction p dim φ c.2 (U.getD i [])) F[o] * φ k) else 0 else 0 with hG
  have key : ∀ (cells : List (Coords K × List Int)) (data : List (List K)), data.length = F.length → (∀ o, o < F.length → (data.getD o []).length = N) → ∃ D : List (List K),
      cells.foldlM (fun (data : List (List K)) c => (volumeManifold dim c.1).map fun v =>
        let nd := (localShapeFunctions p dim).length
        let fvals := U.map fun u => feValues nd c.2 u (phi p dim R) R.length
        let fvals2 := (List.range R.length).map fun k => (fun x : List K => F.map fun f => MvPolynomial.eval (fun i : Fin n => x.getD i 0) f) (fvals.map fun w => w.getD k 0)
        data.zipIdx.map fun d => addCell nd c.2 (R.map Prod.snd) v (phi p dim R) (fvals2.map fun w => w.getD d.2 0) d.1) data = some D ∧ D.length = F.length ∧
      ∀ o, o < F.length → (D.getD o []).length = N ∧ ∀ I, I < N → (D.getD o []).getD I 0 = (data.getD o []).getD I 0 + (cells.map fun c => G c o I).sum := by
    intro cells
    induction cells with
    | nil => intro data hl hN; exact ⟨data, rfl, hl, fun o ho => ⟨hN o ho, fun I _ => by simp⟩⟩
    | cons c t ih =>
      intro data hl hN
      rw [List.foldlM_cons, hsome c.1]
      simp only [Option.map_some, Option.bind_eq_bind, Option.bind_some]
      set data' := data.zipIdx.map fun d => addCell (localShapeFunctions p dim).length c.2 (R.map Prod.snd) (vol c.1) (phi p dim R) (((List.range R.length).map fun k => F.map fun f =>
        MvPolynomial.eval (fun i : Fin n => ((U.map fun u => feValues (localShapeFunctions p dim).length c.2 u (phi p dim R) R.length).map fun w => w.getD k 0).getD i 0) f).map fun w => w.getD d.2 0) d.1 with hdata
      have hget : ∀ o (ho : o < F.length), (data'.getD o []).length = N ∧ ∀ I, I < N → (data'.getD o []).getD I 0 = (data.getD o []).getD I 0 + G c o I := by
        intro o ho
        have hd : data'.getD o [] = addCell (localShapeFunctions p dim).length c.2 (R.map Prod.snd) (vol c.1) (phi p dim R) (((List.range R.length).map fun k => F.map fun f =>
            MvPolynomial.eval (fun i : Fin n => ((U.map fun u => feValues (localShapeFunctions p dim).length c.2 u (phi p dim R) R.length).map fun w => w.getD k 0).getD i 0) f).map fun w => w.getD o 0) (data.getD o []) := by
          rw [hdata, List.getD_eq_getElem _ _ (by simp; omega), List.getElem_map, List.getElem_zipIdx, List.getD_eq_getElem _ _ (by omega)]
          simp
        rw [hd]
        obtain ⟨a, b⟩ := addCell_spec (localShapeFunctions p dim).length c.2 (R.map Prod.snd) (vol c.1) (phi p dim R) (((List.range R.length).map fun k => F.map fun f =>
            MvPolynomial.eval (fun i : Fin n => ((U.map fun u => feValues (localShapeFunctions p dim).length c.2 u (phi p dim R) R.length).map fun w => w.getD k 0).getD i 0) f).map fun w => w.getD o 0) (data.getD o []) N (hN o ho)
        refine ⟨a, fun I hI => ?_⟩
        rw [b I hI, hG]
        dsimp only
        rw [dif_pos ho]
        congr 1
        refine Finset.sum_congr rfl fun k hk => ?_
        congr 1
        refine cell_exact p dim q (r * p) hp h1 h3 R hR φ hφ _ ((bind_degree F[o] _ p fun i => feFunction_degree p dim hp h1 h3 φ hφ c.2 _).trans (Nat.mul_le_mul_right p (hF _ (List.getElem_mem ho)))) hq (vol c.1) _
          (fun j hj => ?_) k (Finset.mem_range.1 hk)
        rw [List.getD_eq_getElem _ _ (by simpa using hj), List.getElem_map, List.getElem_map, List.getElem_range, List.getD_eq_getElem _ _ (by simpa using ho), List.getElem_map]
        refine (congrArg (fun y : Fin n → K => MvPolynomial.eval y F[o]) (funext fun i => ?_)).trans (eval_bind F[o] _ _).symm
        have hi : i.1 < U.length := by omega
        rw [List.getD_eq_getElem _ _ (by simpa using hi), List.getElem_map, List.getElem_map, feFunction_values p dim R φ hφ c.2 _ j hj, List.getD_eq_getElem _ _ hi]
      obtain ⟨D, e1, e2, e3⟩ := ih data' (by rw [hdata]; simp [hl]) (fun o ho => (hget o ho).1)
      refine ⟨D, e1, e2, fun o ho => ⟨(e3 o ho).1, fun I hI => ?_⟩⟩
      rw [(e3 o ho).2 I hI, (hget o ho).2 I hI, List.map_cons, List.sum_cons, add_assoc]
  unfold nonlinearity
  obtain ⟨D, e1, e2, e3⟩ := key cells (List.replicate F.length (List.replicate N 0)) (by simp) (fun o ho => by rw [List.getD_eq_getElem _ _ (by simpa using ho), List.getElem_replicate, List.length_replicate])
  refine ⟨D, e1, e2, fun o ho => ⟨(e3 o ho).1, fun I hI => ?_⟩⟩
  rw [(e3 o ho).2 I hI, List.getD_eq_getElem (List.replicate F.length (List.replicate N (0 : K))) [] (by simpa using ho), List.getElem_replicate, replicate_zero, zero_add]
  unfold total
  congr 1
  refine List.map_congr_left fun c _ => ?_
  rw [hG]
  exact dif_pos ho

/-- The rule of `assembleNonlinearity` suffices for affine functions of linear elements. -/
theorem nonlinearRule_partial (pRoots : Nat → List (K × K)) (s : K) (hs : s ^ 2 = 15) (hL : IsLegendre 2 (pRoots 2)) (dim : Nat) (h1 : 1 ≤ dim) (h3 : dim ≤ 3) :
    ∃ R q, nonlinearRule pRoots s 1 dim = some R ∧ ExactTo dim q R ∧ 1 * 1 + 1 ≤ q := by
  interval_cases dim
  · obtain ⟨R, h, e⟩ := (C67.gauss1D_exact pRoots 3).1 (by omega) hL
    exact ⟨R, 3, h, e, by omega⟩
  · obtain ⟨R, h, e⟩ := (C67.gauss2D_exact s hs 2).1 (by omega)
    exact ⟨R, 2, h, e, by omega⟩
  · obtain ⟨R, h, e⟩ := (C67.gauss3D_exact (K := K) 3).1 rfl
    exact ⟨R, 3, h, e, by omega⟩

/-- `assembleRHS` of a vector function for a product of spaces: the entries of each component are those of the scalar assembly. -/
theorem vector_components (dim p n : Nat) (h1 : 1 ≤ dim) (h3 : dim ≤ 3) (hp : p ≤ 3) (R : Rule K) (hR : ∀ r ∈ R, r.1.length = dim + 1) (f : Vec K → List K) (cells : List (Coords K × List Int))
    (hc : ∀ c ∈ cells, c.2.length = (localShapeFunctions p dim).length) (N : Nat) :
    ∃ b, rhsVector dim p n R f (cells.map fun c => (c.1, c.2.flatMap (DoFMap.productDofs n))) (n * N) = some b ∧ b.length = n * N ∧
      ∀ m, m < n → ∃ bm, rhs (fun x => x) dim dim p R (fun x => (f x).getD m 0) cells N = some bm ∧ bm.length = N ∧ ∀ I, I < N → b.getD (n * I + m) 0 = bm.getD I 0 := by
  have hvol : ∀ S : Coords K, ∃ v, volumeDim dim S = some v ∧ simplexVolume (fun x => x) dim dim S = some v := fun S => by
    unfold volumeDim simplexVolume simplexVolume1D simplexVolume2D simplexVolume3D
    interval_cases dim <;> exact ⟨_, rfl, rfl⟩
  choose vol hv1 hv2 using hvol
  set M := (localShapeFunctions p dim).length with hM
  unfold rhsVector
  rw [List.foldlM_map]
  obtain ⟨b, e1, e2, e3⟩ := cells_spec cells (fun c => volumeDim dim c.1) (fun c => vol c.1) (fun c _ => hv1 c.1)
    (fun v c data =>
      let fvals := Quadrature.evalFun dim R f c.1
      Loops.forRange 0 (M * n) data fun data k =>
        let I := (c.2.flatMap (DoFMap.productDofs n)).getD k 0
        if I < 0 then data
        else Loops.forRange 0 R.length data fun data j => Loops.forRange 0 n data fun data l =>
          data.modify I.toNat (· + v * (R.map Prod.snd).getD j 0 * (fvals.getD j []).getD l 0 * phiVector p dim n R k j l))
    (fun c J => ∑ k ∈ Finset.range (M * n), if (c.2.flatMap (DoFMap.productDofs n)).getD k 0 = (J : Int) then ∑ j ∈ Finset.range R.length, ∑ l ∈ Finset.range n,
      vol c.1 * (R.map Prod.snd).getD j 0 * ((Quadrature.evalFun dim R f c.1).getD j []).getD l 0 * phiVector p dim n R k j l else 0) (n * N)
    (fun c _ data hl => by
      refine forRange_add (M * n) _ _ (n * N) (fun data k hl => ?_) data hl
      dsimp only
      set d := (c.2.flatMap (DoFMap.productDofs n)).getD k 0
      by_cases hneg : d < 0
      · rw [if_pos hneg]
        exact ⟨hl, fun I _ => by rw [if_neg (by omega), add_zero]⟩
      · rw [if_neg hneg]
        obtain ⟨a, b⟩ := forRange_add R.length _ (fun j I => ∑ l ∈ Finset.range n, if d = (I : Int) then
            vol c.1 * (R.map Prod.snd).getD j 0 * ((Quadrature.evalFun dim R f c.1).getD j []).getD l 0 * phiVector p dim n R k j l else 0) (n * N)
          (fun data j hl => forRange_add n (fun data l => data.modify d.toNat (· + vol c.1 * (R.map Prod.snd).getD j 0 * ((Quadrature.evalFun dim R f c.1).getD j []).getD l 0 * phiVector p dim n R k j l)) _ (n * N) (fun data l hl => ⟨by rw [List.length_modify, hl], fun I hI => by
            rw [modify_add _ _ _ _ (by omega)]
            simp only [toNat_iff hneg]⟩) data hl) data hl
        refine ⟨a, fun I hI => ?_⟩
        rw [b I hI]
        by_cases h : d = (I : Int)
        · simp only [if_pos h]
        · simp only [if_neg h, Finset.sum_const_zero]) (List.replicate (n * N) 0) (by simp)
  refine ⟨b, e1, e2, fun m hm => ?_⟩
  unfold rhs assemble
  obtain ⟨bm, f1, f2, f3⟩ := cells_spec cells (fun c => simplexVolume (fun x => x) dim dim c.1) (fun c => vol c.1) (fun c _ => hv2 c.1)
      (fun v c data => addCell M c.2 (R.map Prod.snd) v (phiStrided p dim R) (Quadrature.evalFun dim R (fun x => (f x).getD m 0) c.1) data)
      _ N (fun c _ data hl => addCell_spec M c.2 (R.map Prod.snd) (vol c.1) (phiStrided p dim R) (Quadrature.evalFun dim R (fun x => (f x).getD m 0) c.1) data N hl) (List.replicate N 0) (by simp)
  refine ⟨bm, f1, f2, fun I hI => ?_⟩
  have hJ : n * I + m < n * N := by
    calc n * I + m < n * I + n := by omega
      _ = n * (I + 1) := by ring
      _ ≤ n * N := Nat.mul_le_mul_left _ (by omega)
  rw [e3 _ hJ, f3 I hI, replicate_zero, replicate_zero, zero_add, zero_add]
  congr 1
  refine List.map_congr_left fun c hcc => ?_
  rw [sum_range_mul]
  refine Finset.sum_congr rfl fun k hk => ?_
  have hk := Finset.mem_range.1 hk
  have hrow : ∀ l, l < n → ((c.2.flatMap (DoFMap.productDofs n)).getD (k * n + l) 0 = ((n * I + m : Nat) : Int) ↔ c.2.getD k 0 = (I : Int) ∧ l = m) := fun l hl => by
    rw [product_row n c.2 k l (by rw [hc c hcc]; exact hk) hl, product_dof n _ l m I hl hm]
  have hstep : ∀ l ∈ Finset.range n, (if (c.2.flatMap (DoFMap.productDofs n)).getD (k * n + l) 0 = ((n * I + m : Nat) : Int) then ∑ j ∈ Finset.range R.length, ∑ l' ∈ Finset.range n,
      vol c.1 * (R.map Prod.snd).getD j 0 * ((Quadrature.evalFun dim R f c.1).getD j []).getD l' 0 * phiVector p dim n R (k * n + l) j l' else 0) =
      if m = l then (if c.2.getD k 0 = (I : Int) then ∑ j ∈ Finset.range R.length, (vol c.1 * (R.map Prod.snd).getD j 0 * phiStrided p dim R k j) • (Quadrature.evalFun dim R (fun x => (f x).getD m 0) c.1).getD j 0 else 0) else 0 := fun l hl => by
    have hl := Finset.mem_range.1 hl
    rw [if_congr (hrow l hl) rfl rfl]
    by_cases hlm : l = m
    · subst hlm
      rw [if_pos rfl]
      refine if_congr (and_iff_left rfl) (Finset.sum_congr rfl fun j hj => ?_) rfl
      have hj := Finset.mem_range.1 hj
      rw [Finset.sum_eq_single l]
      · unfold phiVector
        rw [if_pos (by rw [Nat.mul_comm, Nat.mul_add_mod, Nat.mod_eq_of_lt hl]), show (k * n + l) / n = k by rw [Nat.mul_comm, Nat.mul_add_div (by omega), Nat.div_eq_of_lt hl, Nat.add_zero],
          phiStrided_eq p dim hp h1 h3 R hR k j hk hj, smul_eq_mul]
        have : (Quadrature.evalFun dim R (fun x => (f x).getD l 0) c.1).getD j 0 = ((Quadrature.evalFun dim R f c.1).getD j []).getD l 0 := by
          unfold Quadrature.evalFun
          rw [List.getD_eq_getElem (R.map fun p => (f (position dim c.1 p.1)).getD l 0) 0 (by simpa using hj), List.getElem_map, List.getD_eq_getElem (R.map fun p => f (position dim c.1 p.1)) [] (by simpa using hj), List.getElem_map]
        rw [this]
        ring
      · intro l' _ hne
        unfold phiVector
        rw [if_neg (by rw [Nat.mul_comm, Nat.mul_add_mod, Nat.mod_eq_of_lt hl]; exact hne), mul_zero]
      · intro h
        exact absurd (Finset.mem_range.2 hl) h
    · rw [if_neg (fun h => hlm h.2), if_neg (fun h => hlm h.symm)]
  rw [Finset.sum_congr rfl hstep, Finset.sum_ite_eq, if_pos (Finset.mem_range.2 hm), List.length_map]

end

/-! ## Where the rules do not suffice -/

theorem mean_pow (d : Nat) (i : Fin (d + 1)) (n : Nat) : mean ℚ d (MvPolynomial.X i ^ n) = d.factorial * n.factorial / (n + d).factorial := by
  rw [MvPolynomial.X_pow_eq_monomial, mean_monomial, one_mul]
  unfold Simplex.weight
  have h1 : ∏ j, ((Finsupp.single i n : Fin (d + 1) →₀ Nat) j).factorial = n.factorial := by
    rw [Finset.prod_eq_single i (fun j _ hj => by rw [Finsupp.single_apply, if_neg (Ne.symm hj)]; rfl) (fun h => absurd (Finset.mem_univ i) h), Finsupp.single_eq_same]
  have h2 : ∑ j, (Finsupp.single i n : Fin (d + 1) →₀ Nat) j = n := by
    rw [Finset.sum_eq_single i (fun j _ hj => by rw [Finsupp.single_apply, if_neg (Ne.symm hj)]) (fun h => absurd (Finset.mem_univ i) h), Finsupp.single_eq_same]
  rw [h1, h2]
  push_cast
  rfl

theorem shape_quadratic (d : Nat) (i : Nat) (hi : i < d + 1) (hk : i < (localShapeFunctions 2 d).length) (hs : (localShapeFunctions 2 d).getD i .p0 = .p2v i)
    (φ : Nat → MvPolynomial (Fin (d + 1)) ℚ) (hφ : IsShape 2 d φ) : φ i = MvPolynomial.C 2 * MvPolynomial.X ⟨i, hi⟩ ^ 2 - MvPolynomial.X ⟨i, hi⟩ ^ 1 := by
  refine MvPolynomial.funext fun x => ?_
  have e : x = fun k : Fin (d + 1) => (List.ofFn x).getD k 0 := by
    funext k
    rw [List.getD_eq_getElem _ _ (by simp; omega), List.getElem_ofFn]
  rw [e, hφ i hk, hs]
  simp only [Shape.eval, map_sub, map_mul, map_pow, MvPolynomial.eval_C, MvPolynomial.eval_X]
  ring

/-- Simplex with a vertex at the origin and the others on the axes. -/
def unit : Coords ℚ := fun k m => if k = m + 1 then 1 else 0

theorem unit_volume : Volume 3 3 unit (1 / 6) := by
  obtain ⟨vol, h1, h2⟩ := volume_full (K := ℚ) 3 (by omega) (by omega)
  have : vol unit = 1 / 6 := by
    have h := h2 unit
    rw [show volumeManifold 3 unit = some (1 / 6) by decide +kernel] at h
    exact (Option.some.inj h).symm
  exact this ▸ h1 unit

theorem unit_volume2 : Volume 2 2 unit (1 / 2) := by
  obtain ⟨vol, h1, h2⟩ := volume_full (K := ℚ) 2 (by omega) (by omega)
  have : vol unit = 1 / 2 := by
    have h := h2 unit
    rw [show volumeManifold 2 unit = some (1 / 2) by decide +kernel] at h
    exact (Option.some.inj h).symm
  exact this ▸ h1 unit

/-- The cell with the dofs `0, 1, …`. -/
def oneCell (n : Nat) : List (Coords ℚ × List Int) := [(unit, (List.range n).map fun i : Nat => (i : Int))]

/-- `assembleRHS` with the default rule for quadratic elements in three dimensions: the entries for a quadratic function are not the integrals. -/
theorem default_fails (pRoots : Nat → List (ℚ × ℚ)) (jsRoots : Nat → Nat → Nat → List (ℚ × ℚ)) (table : Nat → Nat → Rule ℚ) (s : ℚ) (φ : Nat → MvPolynomial (Fin 4) ℚ) (hφ : IsShape 2 3 φ) :
    ∃ (R : Rule ℚ) (f : MvPolynomial (Fin 3) ℚ) (b : List ℚ), defaultRule pRoots jsRoots table s 2 3 3 = some R ∧ f.totalDegree ≤ 2 ∧
      rhs (fun x => x) 3 3 2 R (fun x => MvPolynomial.eval (fun m : Fin 3 => x m) f) (oneCell 10) 10 = some b ∧ b.getD 1 0 ≠ 1 / 6 * mean ℚ 3 (pullback 3 3 unit f * φ 1) := by
  obtain ⟨R, hR, -⟩ := (C67.gauss3D_exact (K := ℚ) 3).1 rfl
  have hb : ((gauss3D (K := ℚ) 3).bind fun R => rhs (fun x => x) 3 3 2 R (fun x => x 0 ^ 2) (oneCell 10) 10).map (fun b => b.getD 1 0) = some (1 / 2880) := by decide +kernel
  rw [hR, Option.bind_some] at hb
  obtain ⟨b, hb1, hb2⟩ := Option.map_eq_some_iff.1 hb
  refine ⟨R, MvPolynomial.X 0 ^ 2, b, hR, (MvPolynomial.totalDegree_pow _ _).trans (by rw [MvPolynomial.totalDegree_X]), ?_, ?_⟩
  · rw [← hb1]
    congr 1
    funext x
    rw [map_pow, MvPolynomial.eval_X]
    rfl
  · rw [hb2]
    have hp : pullback 3 3 unit (MvPolynomial.X 0 ^ 2) = MvPolynomial.X 1 ^ 2 := by
      unfold pullback
      rw [map_pow, MvPolynomial.bind₁_X_right, Fin.sum_univ_four]
      simp [unit]
    rw [hp, shape_quadratic 3 1 (by omega) (by decide) rfl φ hφ]
    have : (MvPolynomial.X 1 ^ 2 * (MvPolynomial.C 2 * MvPolynomial.X ⟨1, by omega⟩ ^ 2 - MvPolynomial.X ⟨1, by omega⟩ ^ 1) : MvPolynomial (Fin 4) ℚ) =
        (2 : ℚ) • MvPolynomial.X 1 ^ 4 - MvPolynomial.X 1 ^ 3 := by
      rw [MvPolynomial.smul_eq_C_mul]
      change MvPolynomial.X 1 ^ 2 * (MvPolynomial.C 2 * MvPolynomial.X 1 ^ 2 - MvPolynomial.X 1 ^ 1) = _
      ring
    rw [this, map_sub, map_smul, mean_pow, mean_pow]
    norm_num [Nat.factorial]

/-- `assembleRHSfromFEfunction` without rule for quadratic elements on triangles: the first basis function is integrated to zero against itself. -/
theorem fromFE_fails (pRoots : Nat → List (ℚ × ℚ)) (s : ℚ) (φ : Nat → MvPolynomial (Fin 3) ℚ) (hφ : IsShape 2 2 φ) :
    ∃ (b : List ℚ), fromFEDefault pRoots s 2 2 2 ((oneCell 6).map fun c => (c.1, c.2, c.2)) 6 [1, 0, 0, 0, 0, 0] = some b ∧ b.getD 0 0 = 0 ∧ 1 / 2 * mean ℚ 2 (φ 0 * φ 0) = 1 / 60 := by
  have hb : ((gauss2D (K := ℚ) 0 2).bind fun R => fromFE (volumeManifold 2) 2 2 2 R ((oneCell 6).map fun c => (c.1, c.2, c.2)) 6 [1, 0, 0, 0, 0, 0]).map (fun b => b.getD 0 0) = some 0 := by decide +kernel
  obtain ⟨b, hb1, hb2⟩ := Option.map_eq_some_iff.1 hb
  refine ⟨b, hb1, hb2, ?_⟩
  rw [shape_quadratic 2 0 (by omega) (by decide) rfl φ hφ]
  have : ((MvPolynomial.C 2 * MvPolynomial.X ⟨0, by omega⟩ ^ 2 - MvPolynomial.X ⟨0, by omega⟩ ^ 1) * (MvPolynomial.C 2 * MvPolynomial.X ⟨0, by omega⟩ ^ 2 - MvPolynomial.X ⟨0, by omega⟩ ^ 1) : MvPolynomial (Fin 3) ℚ) =
      (4 : ℚ) • MvPolynomial.X 0 ^ 4 - (4 : ℚ) • MvPolynomial.X 0 ^ 3 + MvPolynomial.X 0 ^ 2 := by
    rw [MvPolynomial.smul_eq_C_mul, MvPolynomial.smul_eq_C_mul, show (4 : ℚ) = 2 * 2 by norm_num, map_mul]
    change (MvPolynomial.C 2 * MvPolynomial.X 0 ^ 2 - MvPolynomial.X 0 ^ 1) * (MvPolynomial.C 2 * MvPolynomial.X 0 ^ 2 - MvPolynomial.X 0 ^ 1) = _
    have : (MvPolynomial.C 2 : MvPolynomial (Fin 3) ℚ) = 2 := rfl
    rw [this]
    ring
  rw [this, map_add, map_sub, map_smul, map_smul, mean_pow, mean_pow, mean_pow]
  norm_num [Nat.factorial]

/-- Triangle with vertices `(0, 0, 0)`, `(1, 0, 0)` and `(0, 0, 1)`. -/
def upright : Coords ℚ := fun k m => if (k = 1 ∧ m = 0) ∨ (k = 2 ∧ m = 2) then 1 else 0

/-- On surfaces `assembleRHSfromFEfunction` without rule takes the volume of the projection: the function one on an upright triangle is integrated to zero. -/
theorem surface_fails (pRoots : Nat → List (ℚ × ℚ)) (s : ℚ) : fromFEDefault pRoots s 0 0 2 [(upright, [0], [0])] 1 [1] = some [0] ∧ ∀ v : ℚ, Volume 3 2 upright v → v ≠ 0 := by
  refine ⟨?_, ?_⟩
  · have hb : ((gauss2D (K := ℚ) 0 2).bind fun R => fromFE (volumeManifold 2) 0 0 2 R [(upright, [0], [0])] 1 [1]) = some [0] := by decide +kernel
    exact hb
  · rintro v ⟨-, h | h | h | ⟨-, -, h⟩⟩ rfl
    · omega
    · omega
    · omega
    · revert h
      decide +kernel

/-- The rule of `assembleNonlinearity` for quadratic elements in three dimensions does not suffice for the identity. -/
theorem nonlinear_fails (pRoots : Nat → List (ℚ × ℚ)) (s : ℚ) (φ : Nat → MvPolynomial (Fin 4) ℚ) (hφ : IsShape 2 3 φ) :
    ∃ R D, nonlinearRule pRoots s 2 3 = some R ∧ nonlinearity R 2 3 (fun x => x) 1 (oneCell 10) 10 [[0, 1, 0, 0, 0, 0, 0, 0, 0, 0]] = some D ∧
      (D.getD 0 []).getD 1 0 ≠ 1 / 6 * mean ℚ 3 (φ 1 * φ 1) := by
  obtain ⟨R, hR, -⟩ := (C67.gauss3D_exact (K := ℚ) 3).1 rfl
  have hb : ((gauss3D (K := ℚ) 3).bind fun R => nonlinearity R 2 3 (fun x => x) 1 (oneCell 10) 10 [[0, 1, 0, 0, 0, 0, 0, 0, 0, 0]]).map (fun D => (D.getD 0 []).getD 1 0) = some (1 / 1440) := by decide +kernel
  rw [hR, Option.bind_some] at hb
  obtain ⟨D, hb1, hb2⟩ := Option.map_eq_some_iff.1 hb
  refine ⟨R, D, hR, hb1, ?_⟩
  rw [hb2, shape_quadratic 3 1 (by omega) (by decide) rfl φ hφ]
  have : ((MvPolynomial.C 2 * MvPolynomial.X ⟨1, by omega⟩ ^ 2 - MvPolynomial.X ⟨1, by omega⟩ ^ 1) * (MvPolynomial.C 2 * MvPolynomial.X ⟨1, by omega⟩ ^ 2 - MvPolynomial.X ⟨1, by omega⟩ ^ 1) : MvPolynomial (Fin 4) ℚ) =
      (4 : ℚ) • MvPolynomial.X 1 ^ 4 - (4 : ℚ) • MvPolynomial.X 1 ^ 3 + MvPolynomial.X 1 ^ 2 := by
    rw [MvPolynomial.smul_eq_C_mul, MvPolynomial.smul_eq_C_mul, show (4 : ℚ) = 2 * 2 by norm_num, map_mul]
    change (MvPolynomial.C 2 * MvPolynomial.X 1 ^ 2 - MvPolynomial.X 1 ^ 1) * (MvPolynomial.C 2 * MvPolynomial.X 1 ^ 2 - MvPolynomial.X 1 ^ 1) = _
    have : (MvPolynomial.C 2 : MvPolynomial (Fin 4) ℚ) = 2 := rfl
    rw [this]
    ring
  rw [this, map_add, map_sub, map_smul, map_smul, mean_pow, mean_pow, mean_pow]
  norm_num [Nat.factorial]

/-! ## Examples -/

/-- Linear elements on the triangle; the third dof is on the boundary. -/
example : (gauss2D (K := ℚ) 0 2).bind (fun R => rhs (fun x => x) 2 2 1 R (fun x => x 0) [(unit, [0, 1, -1])] 2) = some [1 / 24, 1 / 12] := by decide +kernel

/-- The same for two components, the function `(x, 1)`. -/
example : (gauss2D (K := ℚ) 0 2).bind (fun R => rhsVector 2 1 2 R (fun x => [x 0, 1]) [(unit, [0, 1, -1].flatMap (DoFMap.productDofs 2))] 4) = some [1 / 24, 1 / 6, 1 / 12, 1 / 6] := by decide +kernel

example (pRoots : Nat → List (ℚ × ℚ)) (s : ℚ) : fromFEDefault pRoots s 1 1 2 [(unit, [0, 1, -1], [0, 1, 2])] 3 [1, 0] = some [1 / 12, 1 / 24, 1 / 24] := by
  have : ((gauss2D (K := ℚ) 0 2).bind fun R => fromFE (volumeManifold 2) 1 1 2 R [(unit, [0, 1, -1], [0, 1, 2])] 3 [1, 0]) = some [1 / 12, 1 / 24, 1 / 24] := by decide +kernel
  exact this

/-- The hypotheses of `rhs_exact` can be met. -/
example : ∃ (R : Rule ℝ) (φ : Nat → MvPolynomial (Fin 4) ℝ), IsSqrt Real.sqrt ∧ Dims 3 3 ∧ ExactTo 3 3 R ∧ IsShape 2 3 φ ∧ (MvPolynomial.X 0 : MvPolynomial (Fin 3) ℝ).totalDegree + 2 ≤ 3 := by
  obtain ⟨R, -, hR⟩ := (C67.gauss3D_exact (K := ℝ) 3).1 rfl
  obtain ⟨φ, hφ⟩ := shape_exists (K := ℝ) 2 3 (by omega) (by omega) (by omega)
  exact ⟨R, φ, fun a ha => ⟨Real.sqrt_nonneg a, Real.sq_sqrt ha⟩, Or.inl ⟨rfl, by omega, by omega⟩, hR, hφ, by rw [MvPolynomial.totalDegree_X]⟩

end PyNucleus.Props.C68
