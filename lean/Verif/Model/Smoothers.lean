import Verif.Model.Direct
import Verif.Model.Krylov

/-!
# Model of the smoothers

/repo/multilevelSolver/PyNucleus_multilevelSolver/smoothers_{SCALAR}.pxi 88-131 (separable and Jacobi
smoothers) and smoothers.pyx 36-158, 174-244, 264-379, 388-436 (SOR, SSOR, Gauss-Seidel, Chebyshev),
without overlaps (serial case).  A row is the list of its stored entries; a loop with `break` is a
recursion over that list.  `none` is a raised error.  Divisions by zero are not detected here: the theorems
assume a nonzero diagonal.
-/

namespace PyNucleus.Smoothers

open PyNucleus.Loops PyNucleus.Spec PyNucleus.CSR PyNucleus.Direct PyNucleus.Blas

variable {K : Type}

/-- `result[:] = 0.0`. -/
def zeros [Zero K] (r : List K) : List K := forRange 0 r.length r fun r i => r.set i 0

/-- Inner loop with `break`, smoothers.pyx 96-100 and 105-109. -/
def breakRow [Field K] (stop : Nat → Bool) (r : List K) : List (Nat × K) → K → K
  | [], t => t
  | (k, d) :: rest, t => if stop k then t else breakRow stop r rest (t - d * r.getD k 0)

/-- One row of a sweep, 95-101 and 104-110. -/
def sorRow [Field K] (A : CSR K) (D : List K) (omega : K) (forward : Bool) (i : Nat) (r : List K) (t : K) : K :=
  omega * (if forward then breakRow (fun k => decide (k ≥ i)) r (A.row i) t
    else breakRow (fun k => decide (k ≤ i)) r (A.row i).reverse t) / D.getD i 0

/-- One sweep reading `x`, 93-110 and 218-225. -/
def sorSweep [Field K] (A : CSR K) (D : List K) (omega : K) (forward : Bool) (x r : List K) : List K :=
  if forward then forRange 0 D.length r fun r i => r.set i (sorRow A D omega true i r (x.getD i 0))
  else forDown D.length r fun r i => r.set i (sorRow A D omega false i r (x.getD i 0))

/-- Branch for symmetric storage, 111-123. -/
def sorSSS [Field K] (A : CSR K) (diag : List K) (omega : K) (n : Nat) (forward : Bool) (x r : List K) : List K :=
  if forward then forRange 0 n r fun r i =>
    r.set i (omega * (forRow A i (x.getD i 0) fun t k d => t - d * r.getD k 0) / diag.getD i 0)
  else forDown n (zeros r) fun r i =>
    forRow A i (r.set i ((x.getD i 0 - omega * r.getD i 0) / diag.getD i 0)) fun r k d =>
      r.modify k (· + d * r.getD i 0)

/-- Operators with their own branch. -/
inductive SorOp (K : Type) where
  | csr (A : CSR K)
  | sss (A : CSR K) (diagonal : List K)
  | ts (M S : CSR K) (facS facM : K)

/-- `facS*Sdata[j]+facM*Mdata[j]` with the index arrays of `S`, 125-130. -/
def comb [Field K] (M S : CSR K) (facS facM : K) : CSR K :=
  { S with data := (List.range S.indices.length).map fun j => facS * S.data.getD j 0 + facM * M.data.getD j 0 }

/-- `sorPreconditioner`. -/
structure SorPrec (K : Type) where
  A : SorOp K
  D : List K
  omega : K
  preForward : Bool
  postForward : Bool
  forward : Bool
  /-- `A_diagonal`; `none` is an unset memoryview. -/
  diagonal : Option (List K)

/-- Constructor, 48-79: symmetric storage is accepted by the first `isinstance`, which does not set
`A_diagonal`; the second branch is never reached.  The assertion on the number of entries is 67-68. -/
def mkSor (A : SorOp K) (D : List K) (omega : K) (preForward postForward : Bool) : Option (SorPrec K) :=
  match A with
  | .ts M S _ _ => if M.indices.length = S.indices.length then
      some ⟨A, D, omega, preForward, postForward, false, none⟩ else none
  | _ => some ⟨A, D, omega, preForward, postForward, false, none⟩

/-- `setPre` and `setPost`, 153-157. -/
def SorPrec.setPre (P : SorPrec K) : SorPrec K := { P with forward := P.preForward }
def SorPrec.setPost (P : SorPrec K) : SorPrec K := { P with forward := P.postForward }

/-- `sorPreconditioner.matvec`, 81-151. -/
def SorPrec.matvec [Field K] (P : SorPrec K) (x r : List K) : Option (List K) :=
  let r := zeros r
  match P.A with
  | .csr A => some (sorSweep A P.D P.omega P.forward x r)
  | .sss A _ => match P.diagonal with
    | some d => some (sorSSS A d P.omega P.D.length P.forward x r)
    | none => if P.D.length = 0 then some r else none
  | .ts M S facS facM => some (sorSweep (comb M S facS facM) P.D P.omega P.forward x r)

/-- `ssorPreconditioner.matvec`, 207-244, for CSR matrices. -/
def ssorMatvec [Field K] (A : CSR K) (D : List K) (omega : K) (x r : List K) : List K :=
  let r := sorSweep A D omega true x (zeros r)
  let r := forRange 0 D.length r fun r i => r.set i (r.getD i 0 * (D.getD i 0 / omega))
  -- 229-236: the sweep reads and writes the same array
  let r := forDown D.length r fun r i => r.set i (sorRow A D omega false i r (r.getD i 0))
  forRange 0 D.length r fun r i => r.set i (r.getD i 0 * (2 - omega))

/-- `jacobiPreconditioner`, pxi 118-131, `D` being the array given to `setD`. -/
def jacobiMatvec [Field K] (D : List K) (omega : K) (x y : List K) : List K :=
  let invD := D.map fun d => omega / d
  forRange 0 D.length y fun y i => y.set i (x.getD i 0 * invD.getD i 0)

/-- `LinearOperator._residual`, LinearOperator_{SCALAR}.pxi 183-194. -/
def residual [Field K] (A : List K → List K → List K) (y b r : List K) (simple : Bool) : List K :=
  if simple then assign r b else assign3Self (A y r) (-1) b 1

/-- Loop of `separableSmoother.eval`, pxi 103-111: new `y` and new contents of the temporary array.  `prec` may raise. -/
def sepLoop [Field K] (A : List K → List K → List K) (prec : List K → List K → Option (List K)) (b : List K) :
    Nat → Bool → List K → List K → List K → Option (List K × List K)
  | 0, _, y, temp, _ => some (y, temp)
  | steps + 1, simple, y, temp, temp2 => do
    let temp := residual A y b temp simple
    let temp2 ← prec temp temp2
    sepLoop A prec b steps false (update y temp2) temp temp2

/-- `separableSmoother.eval`, pxi 88-111; `prec` is the preconditioner after `setPre` (`false`) or
`setPost` (`true`). -/
def sepEval [Field K] (A : List K → List K → List K) (prec : Bool → List K → List K → Option (List K))
    (preSteps postSteps : Nat) (b y : List K) (post simple : Bool) (temp temp2 : List K) : Option (List K × List K) :=
  sepLoop A (prec post) b (if post then postSteps else preSteps) simple y temp temp2

/-- A SOR preconditioner used by a separable smoother. -/
def SorPrec.use [Field K] (P : SorPrec K) (post : Bool) (x r : List K) : Option (List K) :=
  (if post then P.setPost else P.setPre).matvec x r

/-- One row of a Gauss-Seidel sweep, 341-345 and 349-353. -/
def gsRow [Field K] (A : CSR K) (D b : List K) (i : Nat) (y : List K) : K :=
  ((forRow A i (b.getD i 0) fun t k d => t - d * y.getD k 0) + D.getD i 0 * y.getD i 0) / D.getD i 0

/-- Sweeps over a CSR matrix, 338-353. -/
def gsCSR [Field K] (A : CSR K) (D b : List K) (forward : Bool) (steps : Nat) (y : List K) : List K :=
  forRange 0 steps y fun y _ =>
    if forward then forRange 0 A.numRows y fun y i => y.set i (gsRow A D b i y)
    else forDown A.numRows y fun y i => y.set i (gsRow A D b i y)

/-- `gaussSeidelSmoother` without overlap. -/
structure GS (K : Type) where
  A : SorOp K
  /-- `A.matvec`, used by `A.residual`. -/
  op : List K → List K → List K
  D : List K
  preForward : Bool
  postForward : Bool
  preSteps : Nat
  postSteps : Nat

/-- Loop of the branch with residuals, 355-376: the roles of `setPre` and `setPost` depend on the
sweep and not on `postsmoother`. -/
def GS.loop [Field K] (op : List K → List K → List K) (P : SorPrec K) (b : List K) (sweep : Bool) :
    Nat → List K → List K → List K → Option (List K)
  | 0, y, _, _ => some y
  | steps + 1, y, temp, temp2 => do
    let temp := residual op y b temp false
    let temp2 ← (if sweep then P.setPost else P.setPre).matvec temp temp2
    GS.loop op P b sweep steps (update y temp2) temp temp2

/-- `gaussSeidelSmoother.eval`, 315-379, with the preconditioner of the constructor, 285-290. -/
def GS.eval [Field K] (G : GS K) (b y : List K) (post : Bool) (temp temp2 : List K) : Option (List K) :=
  let steps := if post then G.postSteps else G.preSteps
  let sweep := if post then G.postForward else G.preForward
  match G.A with
  | .csr A => some (gsCSR A G.D b sweep steps y)
  | _ => do
    let P ← mkSor G.A G.D 1 G.preForward G.postForward
    GS.loop G.op P b sweep steps y temp temp2

/-- `np.poly(roots)`: leading coefficient first, one convolution with `[1, -r]` for each root. -/
def npPoly [Field K] (roots : List K) : List K :=
  roots.foldl (fun a r => List.zipWith (· + ·) (a ++ [0]) (0 :: a.map fun c => -r * c)) [1]

/-- `np.polyval(p, x)`. -/
def npPolyval [Field K] (p : List K) (x : K) : K := p.foldl (fun y c => y * x + c) 0

/-- `scaled_roots`, 406-413; `std` are the cosines. -/
def chebRoots [Field K] (rhoA lower upper : K) (std : List K) : List K :=
  let a := rhoA * lower
  let b := rhoA * upper
  std.map fun c => 1 / 2 * (b - a) * (1 + c) + a

/-- `self.coeffs`, smoothers.pyx 415-424, from the scaled roots. -/
def chebCoeffs [Field K] (roots : List K) : List K :=
  let p := npPoly roots
  let s := npPolyval p 0
  ((p.map fun c => c / s).dropLast).map fun c => -c

/-- `chebyshevPreconditioner.matvec`, 426-436; `none` is `coeffs[0]` of an empty array. -/
def chebMatvec [Field K] (A : List K → List K → List K) (coeffs : List K) (x y temp : List K) : Option (List K) :=
  match coeffs with
  | [] => none
  | c0 :: cs => some (cs.foldl (fun (s : List K × List K) c =>
      let temp := A s.1 s.2
      (assign3 s.1 x c temp 1, temp)) (assignScaled y x c0, temp)).1

end PyNucleus.Smoothers
