import Verif.Model.Overlap
import Verif.Model.Blas
import Mathlib.Analysis.SpecialFunctions.Sqrt
import Mathlib.Analysis.Complex.Basic

/-!
# Model of the inner products, norms, and convergence criteria

/repo/base/PyNucleus_base/ip_norm.pyx, 62-182 and 215-283, /repo/base/PyNucleus_base/convergence.pyx, 18-73, and the search for a level in
/repo/fem/PyNucleus_fem/algebraicOverlaps.pyx, 1575-1593, 1635-1651 (`multilevelAlgebraicOverlapManager`).

A collective call is one function of the data of all ranks `0, …, P-1`; `Allreduce` is the sum over the ranks.  What `accumulate` returns is a parameter `y`,
related to its argument by the executions of Model/Overlap (C31).  `none` is a raised error.  Not modelled: asynchronous reductions, sends to clients.
-/

namespace PyNucleus.InnerProducts

open PyNucleus.Loops PyNucleus.Overlap PyNucleus.Blas

variable {K : Type}

/-- algebraicOverlaps.pyx 1586-1588, 1645-1647: the highest level with `n` dofs. -/
def findLevel (levels : List Manager) (n : Nat) : Option Nat :=
  (List.range levels.length).reverse.find? fun l => decide ((levels[l]?.map Manager.n) = some n)

/-- algebraicOverlaps.pyx 1584-1592, 1643-1650; `level = none` is `-1`. -/
def pickLevel (levels : List Manager) (level : Option Nat) (n : Nat) : Option Nat :=
  match level with
  | none => findLevel levels n
  | some l => if l < levels.length then some l else none

/-- ip_norm.pyx 131-133, 172-174: the temporary vector; `fresh n` is uninitialised memory. -/
def temporary (fresh : Nat → List K) (mem : List K) (n : Nat) : List K := if n > mem.length then fresh n else mem

/-- `distribute(vec, vec2)`, algebraicOverlaps.pyx 815-822, with the scaling of `prepareDistribute`. -/
def distributeInto [Field K] (M : Manager) (vec vec2 : List K) : List K :=
  distribute M.prepareDistribute (forRange 0 M.n vec2 fun w dof => w.set dof (vec.getD dof 0))

/-- `accumulate(vec, return_vec)`, algebraicOverlaps.pyx 913-934: `n` entries are written, `y` are the accumulated ones. -/
def accumulateInto [Zero K] (n : Nat) (y returnVec : List K) : List K :=
  forRange 0 n returnVec fun w j => w.set j (y.getD j 0)

/-- `ip_distributed.eval` on one rank, before the reduction; 123-153. -/
def ipLocal [Field K] (levels : List Manager) (level : Option Nat) (u : List K) (acc1 acc2 : Bool) (v1 v2 y : List K) : Option K :=
  if v1.length ≠ v2.length then none
  else if acc1 = acc2 then
    if acc1 then
      match pickLevel levels none v1.length with
      | none => none
      | some l => some (mydot v2 (distributeInto (levels.getD l ⟨0, []⟩) v1 u))
    else
      match pickLevel levels level v1.length with
      | none => none
      | some _ => some (mydot v2 (accumulateInto v1.length y u))
  else if !acc1 then some (mydot v2 v1)
  else some (mydot v1 v2)

/-- `norm_distributed.eval` on one rank, before the reduction; 172-179. -/
def normLocal [Field K] (levels : List Manager) (level : Option Nat) (u : List K) (acc : Bool) (v y : List K) : Option K :=
  match pickLevel levels level v.length with
  | none => none
  | some l => if acc then some (mydot v (distributeInto (levels.getD l ⟨0, []⟩) v u)) else some (mydot v (accumulateInto v.length y u))

/-- `reduce`, algebraicOverlaps.pyx 1496-1503: an error on one rank leaves all without a result. -/
def reduce [AddCommMonoid K] (P : Nat) (v : Nat → Option K) : Option K :=
  (List.range P).foldl (fun s r => match s, v r with
    | some s, some x => some (s + x)
    | _, _ => none) (some 0)

/-- The data all ranks have at a call: levels, level, temporary memory. -/
structure Ranks (K : Type) where
  P : Nat
  levels : Nat → List Manager
  level : Option Nat
  fresh : Nat → Nat → List K
  mem : Nat → List K

/-- `ip_distributed.eval`. -/
def ipDistributed [Field K] (R : Ranks K) (acc1 acc2 : Bool) (v1 v2 y : Nat → List K) : Option K :=
  reduce R.P fun r => ipLocal (R.levels r) R.level (temporary (R.fresh r) (R.mem r) (v1 r).length) acc1 acc2 (v1 r) (v2 r) (y r)

/-- `norm_distributed.eval`; 180-182. -/
noncomputable def normDistributed (R : Ranks ℝ) (acc : Bool) (v y : Nat → List ℝ) : Option ℝ :=
  (reduce R.P fun r => normLocal (R.levels r) R.level (temporary (R.fresh r) (R.mem r) (v r).length) acc (v r) (y r)).map Real.sqrt

/-- `ip_distributed_nonoverlapping.eval`, 84-98. -/
def ipNonoverlapping [Semiring K] (P : Nat) (v1 v2 : Nat → List K) : Option K := reduce P fun r => some (mydot (v1 r) (v2 r))

/-- `norm_distributed_nonoverlapping.eval`, 101-115. -/
noncomputable def normNonoverlapping (P : Nat) (v : Nat → List ℝ) : Option ℝ := (reduce P fun r => some (mydot (v r) (v r))).map Real.sqrt

/-- Real and imaginary parts of the local vectors of all ranks; 226-231, 251-256, 262-270. -/
noncomputable def re (x : Nat → List ℂ) : Nat → List ℝ := fun r => (x r).map Complex.re
noncomputable def im (x : Nat → List ℂ) : Nat → List ℝ := fun r => (x r).map Complex.im

/-- `wrapRealNormToComplex.eval`, 216-232; `nrm` is the norm, collective. -/
noncomputable def wrapNorm (nrm : Bool → (Nat → List ℝ) → Option ℝ) (acc : Bool) (x : Nat → List ℂ) : Option ℝ :=
  match nrm acc (re x), nrm acc (im x) with
  | some a, some b => some (Real.sqrt (0 + a ^ 2 + b ^ 2))
  | _, _ => none

/-- `wrapRealInnerToComplex.eval`, 241-283. -/
noncomputable def wrapInner (inner : Bool → Bool → (Nat → List ℝ) → (Nat → List ℝ) → Option ℝ) (acc1 acc2 : Bool) (x y : Nat → List ℂ) : Option ℂ :=
  match inner acc1 acc2 (re x) (re y), inner acc1 acc2 (re x) (im y), inner acc1 acc2 (im x) (im y), inner acc1 acc2 (im x) (re y) with
  | some a, some b, some c, some d => some ((a : ℂ) + Complex.I * (b : ℂ) + (c : ℂ) - Complex.I * (d : ℂ))
  | _, _, _, _ => none

/-- `synchronousConvergenceCriterion`: `tol`, `maxiter`, `iter`; convergence.pyx 19-28. -/
structure Criterion where
  tol : ℝ
  maxiter : Nat
  iter : Nat

/-- `synchronousConvergenceCriterion.eval`, 59-66. -/
noncomputable def Criterion.eval (c : Criterion) (globalResidual : ℝ) : Bool × Criterion :=
  open Classical in (decide (globalResidual < c.tol ∨ c.iter ≥ c.maxiter), { c with iter := c.iter + 1 })

/-- A loop that calls `eval` until it returns true: number of calls; `residual k` is the norm at call `k`. -/
noncomputable def Criterion.calls (c : Criterion) (residual : Nat → ℝ) : Nat → Nat → Criterion → Nat
  | 0, k, _ => k
  | fuel + 1, k, s => if (s.eval (residual k)).1 then k + 1 else c.calls residual fuel (k + 1) (s.eval (residual k)).2

end PyNucleus.InnerProducts
