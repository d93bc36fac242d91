import Verif.Model.Quadrature
import Verif.Model.ShapeFunctions
import Verif.Model.Loops
import Verif.Model.DoFMap
import Mathlib.Algebra.Module.Defs

/-!
# Model of the assembly of right-hand sides

/repo/fem/PyNucleus_fem/femCy.pyx 2610-2862 and 3087-3265.  The mesh and the dof map are the list of cells, a cell is the pair of its vertices and of its row of dofs.
Products of reals with real or complex values of functions are scalar multiplications; the order of factors and rounding are not modelled.  `none`: an exception.
-/

namespace PyNucleus.LoadVector

open PyNucleus.SimplexGeometry PyNucleus.Quadrature PyNucleus.ShapeFunctions PyNucleus.Loops

variable {K L : Type} [Field K]

/-- The array `qr.nodes` row by row, as seen by `&qr.nodes[0, j]`. -/
def flatNodes (mdim : Nat) (R : Rule K) : List K := (List.range (mdim + 1)).flatMap fun v => R.map fun r => r.1.getD v 0

/-- `PHI` of `assembleRHS`, 2675-2679. -/
def phiStrided (p mdim : Nat) (R : Rule K) (k j : Nat) : K := ((localShapeFunctions p mdim).getD k .p0).evalStrided ((flatNodes mdim R).drop j) R.length

/-- `PHI` of `assembleRHScomplex`, 2828-2831, and of 3130-3133, 3222-3225, 3230-3233. -/
def phi (p mdim : Nat) (R : Rule K) (k j : Nat) : K := ((localShapeFunctions p mdim).getD k .p0).eval (R.getD j ([], 0)).1

section
variable [AddCommMonoid L] [Module K L]

/-- "Put everything together" on one cell, 2696-2702 (also 2855-2862, 3169-3176, 3258-3264). -/
def addCell (n : Nat) (dofs : List Int) (weights : List K) (vol : K) (PHI : Nat → Nat → K) (fvals data : List L) : List L :=
  forRange 0 n data fun data k =>
    let I := dofs.getD k 0
    if I < 0 then data
    else forRange 0 weights.length data fun data j => data.modify I.toNat (· + (vol * weights.getD j 0 * PHI k j) • fvals.getD j 0)

variable [LinearOrder K]

/-- The loop over the cells, 2683-2702, with given `PHI`. -/
def assemble (sqrt : K → K) (dim mdim n : Nat) (R : Rule K) (PHI : Nat → Nat → K) (f : Vec K → L) (cells : List (Coords K × List Int)) (numDofs : Nat) : Option (List L) :=
  cells.foldlM (fun data c => (simplexVolume sqrt dim mdim c.1).map fun vol => addCell n c.2 (R.map Prod.snd) vol PHI (evalFun mdim R f c.1) data) (List.replicate numDofs 0)

/-- `assembleRHS` of a scalar function, 2610-2702, for a given rule. -/
def rhs (sqrt : K → K) (dim mdim p : Nat) (R : Rule K) (f : Vec K → L) (cells : List (Coords K × List Int)) (numDofs : Nat) : Option (List L) :=
  assemble sqrt dim mdim (localShapeFunctions p mdim).length R (phiStrided p mdim R) f cells numDofs

/-- `assembleRHScomplex`, 2777-2860. -/
def rhsComplex (sqrt : K → K) (dim mdim p : Nat) (R : Rule K) (f : Vec K → L) (cells : List (Coords K × List Int)) (numDofs : Nat) : Option (List L) :=
  assemble sqrt dim mdim (localShapeFunctions p mdim).length R (phi p mdim R) f cells numDofs

end

/-- The default rule, 2637-2662. -/
def defaultRule (pRoots : Nat → List (K × K)) (jsRoots : Nat → Nat → Nat → List (K × K)) (table : Nat → Nat → Rule K) (s : K) (p dim mdim : Nat) : Option (Rule K) :=
  let last := xiaoGimbutas jsRoots table (2 * p + 2) mdim
  if dim = mdim then
    if mdim = 1 then if p = 0 ∨ p = 1 then gauss1D pRoots 3 else if p = 2 then gauss1D pRoots 5 else last
    else if mdim = 2 then if p = 0 ∨ p = 1 then gauss2D s 2 else if p = 2 then gauss2D s 5 else last
    else if mdim = 3 then if p = 1 ∨ p = 2 then gauss3D 3 else last
    else none
  else last

/-- `sC.evalVolume()`, 237-460, by the dimension of the space. -/
def volumeDim [LinearOrder K] (dim : Nat) (S : Coords K) : Option K :=
  if dim = 1 then some (simplexVolume1D S) else if dim = 2 then some (simplexVolume2D S) else if dim = 3 then some (simplexVolume3D S) else none

/-- `PHIVector[k, j, l]` for the shape functions of a product map with `n` components, 2748-2752 with DoFMaps.pyx 2483-2490 and 2532-2539. -/
def phiVector (p mdim n : Nat) (R : Rule K) (k j l : Nat) : K := if l = k % n then phi p mdim R (k / n) j else 0

/-- `assembleRHS` of a vector function with `n` components for a product map, 2707-2773 (the branch without gradients).  The rows of dofs are those of the product. -/
def rhsVector [LinearOrder K] (dim p n : Nat) (R : Rule K) (f : Vec K → List K) (cells : List (Coords K × List Int)) (numDofs : Nat) : Option (List K) :=
  cells.foldlM (fun data c => (volumeDim dim c.1).map fun vol =>
    let fvals := evalFun dim R f c.1
    forRange 0 ((localShapeFunctions p dim).length * n) data fun data k =>
      let I := c.2.getD k 0
      if I < 0 then data
      else forRange 0 R.length data fun data j => forRange 0 n data fun data l =>
        data.modify I.toNat (· + vol * (R.map Prod.snd).getD j 0 * (fvals.getD j []).getD l 0 * phiVector p dim n R k j l)) (List.replicate numDofs 0)

/-- Volume chosen by the dimension of the manifold only, 3107-3126 and 3207-3217. -/
def volumeManifold [LinearOrder K] (mdim : Nat) (S : Coords K) : Option K :=
  let span : Coords K := fun k j => S (k + 1) j - S 0 j
  if mdim = 1 then some |span 0 0| else if mdim = 2 then some (volume2Dnew (span 0) (span 1)) else if mdim = 3 then some (volume3Dnew (span 0) (span 1) (span 2)) else none

/-- Values of a finite element function at the nodes of the rule, 3248-3254 (also 3157-3164). -/
def feValues (n : Nat) (dofs : List Int) (u : List K) (PHI : Nat → Nat → K) (numNodes : Nat) : List K :=
  forRange 0 n (List.replicate numNodes 0) fun fvals m =>
    let I := dofs.getD m 0
    if 0 ≤ I then forRange 0 numNodes fvals fun fvals k => fvals.modify k (· + u.getD I.toNat 0 * PHI m k) else fvals

/-- The loop of `assembleRHSfromFEfunction`, 3236-3264; a cell has the rows of both dof maps; `vol` is the volume in use. -/
def fromFE (vol : Coords K → Option K) (p1 p2 mdim : Nat) (R : Rule K) (cells : List (Coords K × List Int × List Int)) (numTarget : Nat) (u : List K) : Option (List K) :=
  cells.foldlM (fun b c => (vol c.1).map fun v =>
    addCell (localShapeFunctions p2 mdim).length c.2.2 (R.map Prod.snd) v (phi p2 mdim R)
      (feValues (localShapeFunctions p1 mdim).length c.2.1 u (phi p1 mdim R) R.length) b) (List.replicate numTarget 0)

/-- `assembleRHSfromFEfunction` with a given rule: `volume = qr.volume`. -/
def fromFEGiven [LinearOrder K] (sqrt : K → K) (dim p1 p2 mdim : Nat) (R : Rule K) (cells : List (Coords K × List Int × List Int)) (numTarget : Nat) (u : List K) : Option (List K) :=
  fromFE (simplexVolume sqrt dim mdim) p1 p2 mdim R cells numTarget u

/-- `assembleRHSfromFEfunction` without rule, 3206-3217. -/
def fromFEDefault [LinearOrder K] (pRoots : Nat → List (K × K)) (s : K) (p1 p2 mdim : Nat) (cells : List (Coords K × List Int × List Int)) (numTarget : Nat) (u : List K) :
    Option (List K) :=
  (if mdim = 1 then gauss1D pRoots 3 else if mdim = 2 then gauss2D s 2 else if mdim = 3 then gauss3D 3 else none).bind fun R =>
    fromFE (volumeManifold mdim) p1 p2 mdim R cells numTarget u

/-- The rule of `assembleNonlinearity`, 3107-3126. -/
def nonlinearRule (pRoots : Nat → List (K × K)) (s : K) (p mdim : Nat) : Option (Rule K) :=
  if mdim = 1 then gauss1D pRoots 3
  else if mdim = 2 then if p = 1 then gauss2D s 2 else if p = 2 then gauss2D s 5 else none
  else if mdim = 3 then if p = 1 ∨ p = 2 then gauss3D 3 else none
  else none

/-- `assembleNonlinearity`, 3087-3176: vectors of the outputs.  `U` are the vectors of the inputs. -/
def nonlinearity [LinearOrder K] (R : Rule K) (p mdim : Nat) (F : List K → List K) (numOutputs : Nat) (cells : List (Coords K × List Int)) (numDofs : Nat) (U : List (List K)) :
    Option (List (List K)) :=
  cells.foldlM (fun (data : List (List K)) c => (volumeManifold mdim c.1).map fun v =>
    let n := (localShapeFunctions p mdim).length
    let fvals := U.map fun u => feValues n c.2 u (phi p mdim R) R.length
    let fvals2 := (List.range R.length).map fun k => F (fvals.map fun w => w.getD k 0)
    data.zipIdx.map fun d => addCell n c.2 (R.map Prod.snd) v (phi p mdim R) (fvals2.map fun w => w.getD d.2 0) d.1) (List.replicate numOutputs (List.replicate numDofs 0))

end PyNucleus.LoadVector
