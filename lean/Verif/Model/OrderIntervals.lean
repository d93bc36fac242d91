import Mathlib.Analysis.SpecialFunctions.Pow.Real
import Mathlib.Analysis.SpecialFunctions.Trigonometric.Basic

/-!
# Intervals and nodes for the interpolation in the fractional order, admissible sets

Models `admissibleSet`, `admissibleSetPair` (nl/PyNucleus_nl/operatorInterpolation.py:12-120) and
`getChebyIntervalsAndNodes` (123-265).

Simplifications: real numbers instead of floating point numbers; `none` stands for a failing assertion;
the values of the search for the best order are natural numbers; vectors are lists.
-/

namespace PyNucleus.OrderIntervals

/-! ## Intervals -/

/-- `regularityLifting` (130-132). -/
noncomputable def lifting (r s : ℝ) : ℝ := min (r + s) (1 / 2)

/-- `s2` (140). -/
noncomputable def s2 (r s : ℝ) : ℝ := min 1 (s + lifting r s)

/-- `epsHat` (141), for the lower end `s`. -/
noncomputable def epsHat (r s t : ℝ) : ℝ := s + s2 r s - 2 * t

/-- `C_delta` (142-145). -/
noncomputable def Cdelta (δ r s : ℝ) : ℝ :=
  if δ > 1 then 4 * (Real.exp (-1) + δ ^ (epsHat r s s + 1)) else 4 * Real.exp (-1)

/-- `sigma` (146). -/
noncomputable def sigma (δ r η : ℝ) (M : Nat) (s : ℝ) : ℝ := (η / Cdelta δ r s) ^ (1 / ((M : ℝ) + 1))

/-- Both assertions (148-149, 156-157). -/
noncomputable def checked (r s smax : ℝ) : Option ℝ :=
  if (s + s2 r s) / 2 - 1 / 2 < smax ∧ smax < (s + s2 r s) / 2 then some smax else none

/-- `getSigmaMaxFixedOrder` (134-150). -/
noncomputable def sigmaMaxFixed (δ r η : ℝ) (M : Nat) (s : ℝ) : Option ℝ :=
  let σ := sigma δ r η M s
  checked r s (s + 2 * σ / (1 + 4 * σ) * min (1 - s) (lifting r s))

/-- `getSigmaMaxVariableOrder` (152-168). -/
noncomputable def sigmaMaxVariable (δ r η ξ s : ℝ) : Option (ℝ × Int) :=
  (checked r s ((s + s2 r s) / 2 - ξ * min (1 - s) (lifting r s))).bind fun smax =>
    let σ := (smax - s) / 2 / epsHat r s smax
    if σ < 1 ∧ σ ≥ 0 then some (smax, ⌈Real.log (η / Cdelta δ r s) / Real.log σ - 1⌉) else none

/-- An interval with its order. -/
abbrev Piece := ℝ × ℝ × Nat

/-- The loop of `getIntervalsFixedOrder` (182-191); the fuel is the number of passes that are left. -/
noncomputable def loopFixed (δ r η sRight : ℝ) (M2 : Nat) : Nat → ℝ → Nat → Option (List Piece)
  | 0, _, _ => some []
  | k + 1, s, M =>
    if s < sRight then
      (sigmaMaxFixed δ r η M s).bind fun t =>
        (loopFixed δ r η sRight M2 k (min t sRight) (if min t sRight ≥ 1 / 2 then M2 else M)).map
          ((s, min t sRight, M) :: ·)
    else some []

/-- `getIntervalsFixedOrder` (170-193); at most 1000 intervals. -/
noncomputable def intervalsFixed (δ r η sLeft sRight : ℝ) (M M2 : Nat) : Option (List Piece) :=
  loopFixed δ r η sRight M2 1000 sLeft (if sLeft ≥ 1 / 2 then M2 else M)

/-- `max(M, M_min)`, `min(M, M_max)` (206-207). -/
def capped (Mmin Mmax : Nat) (M : Int) : Nat := min (max M.toNat Mmin) Mmax

/-- The loop of `getIntervalsVariableOrder` (204-212). -/
noncomputable def loopVariable (δ r η ξ sRight : ℝ) (Mmin Mmax : Nat) : Nat → ℝ → Option (List Piece)
  | 0, _ => some []
  | k + 1, s =>
    if s < sRight then
      (sigmaMaxVariable δ r η ξ s).bind fun p =>
        (loopVariable δ r η ξ sRight Mmin Mmax k (min p.1 sRight)).map
          ((s, min p.1 sRight, capped Mmin Mmax p.2) :: ·)
    else some []

/-- `getIntervalsVariableOrder` (195-214). -/
noncomputable def intervalsVariable (δ r η ξ sLeft sRight : ℝ) (Mmin Mmax : Nat) : Option (List Piece) :=
  loopVariable δ r η ξ sRight Mmin Mmax 1000 sLeft

/-- `getChebyNodes` (216-221). -/
noncomputable def chebyNodes (n : Nat) (a b : ℝ) : List ℝ :=
  (List.range n).map fun i =>
    0.5 * (a + b) + 0.5 * (b - a) * Real.cos ((2 * ((n - i : Nat) : ℝ) - 1) / (2 * n) * Real.pi)

/-- `costFixedOrder` (223-225). -/
def cost (l : List Piece) : Nat := (l.map fun p => p.2.2 + 1).sum

/-- `argmin`: the first position with the smallest cost. -/
def argmin : List Nat → Nat
  | [] => 0
  | [_] => 0
  | x :: y :: l => if x ≤ (y :: l).getD (argmin (y :: l)) 0 then 0 else argmin (y :: l) + 1

/-- The order that is chosen (255-257): `orders` are `M_min, …, M_max`, `costs` their costs. -/
def best (orders costs : List Nat) : Nat := orders.getD (argmin costs) 0

/-! ## Admissible sets -/

section
variable {K : Type} [Zero K] [LinearOrder K]

/-- `getActiveParams` (31-34). -/
def active (ranges : List (K × K)) : List Nat :=
  (List.range ranges.length).filter fun i => decide ((ranges.getD i (0, 0)).1 < (ranges.getD i (0, 0)).2)

/-- `isAdmissible` (68-75); the assertion gives `none`. -/
def isAdmissible (ranges : List (K × K)) (z : List K) : Option Bool :=
  if z.length = ranges.length then
    some ((List.range ranges.length).all fun i =>
      decide ((ranges.getD i (0, 0)).1 ≤ z.getD i 0) && decide (z.getD i 0 ≤ (ranges.getD i (0, 0)).2))
  else none

/-- `z[idx] = zActive` (89). -/
def assign : List K → List Nat → List K → List K
  | z, i :: idx, x :: l => assign (z.set i x) idx l
  | z, _, _ => z

/-- `augment` (80-90). -/
def augment (ranges : List (K × K)) (zActive : List K) : Option (List K) :=
  if zActive.length = (active ranges).length then
    some (assign (ranges.map Prod.fst) (active ranges) zActive)
  else none

/-- `project1` (102-104); `n1` and `n2` are the numbers of parameters. -/
def project1 (n1 n2 : Nat) (z : List K) : Option (List K) :=
  if z.length = n1 + n2 then some (z.take n1) else none

/-- `project2` (106-108): `z[-0:]` is the whole vector. -/
def project2 (n1 n2 : Nat) (z : List K) : Option (List K) :=
  if z.length = n1 + n2 then some (if n2 = 0 then z else z.drop (z.length - n2)) else none

/-- `inject1` (110-114). -/
def inject1 (n1 n2 : Nat) (z : List K) : Option (List K) :=
  if z.length = n1 then some (z ++ List.replicate n2 0) else none

/-- `inject2` (116-120). -/
def inject2 (n1 n2 : Nat) (z : List K) : Option (List K) :=
  if z.length = n2 then some (List.replicate n1 0 ++ z) else none

end

end PyNucleus.OrderIntervals
