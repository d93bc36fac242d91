import Mathlib.Algebra.Module.LinearMap.Defs
import Mathlib.Algebra.Field.Defs
import Mathlib.Order.Defs.LinearOrder

/-!
# The flexible method of conjugate gradients

Models `flexible_cg` (base/PyNucleus_base/linalg.pyx:544-623).

Simplifications: vectors of a vector space over an ordered field; the square root is a parameter; the inner product is the one of a single
process; `none` stands for a division by zero. The array `rold` is not initialised (551-552): its content is the parameter `mem`. The updates
after the last iteration are left out, nothing reads them.
-/

namespace PyNucleus.FlexibleCG

variable {K V : Type} [Field K] [LinearOrder K] [AddCommGroup V] [Module K V]

/-- What is given: matrix, preconditioner, inner product, square root and tolerance. -/
structure Method (K V : Type) where
  A : V → V
  prec : V → V
  ip : V → V → K
  sqrt : K → K
  tol : K

/-- The vectors and `beta2` at the begin of an iteration. -/
structure St (K V : Type) where
  x : V
  r : V
  p : V
  rold : V
  beta2 : K

/-- The step along the direction and the difference of the residuals (581-587, 606-612). -/
def advance (m : Method K V) (s : St K V) : Option (St K V) :=
  if m.ip s.p (m.A s.p) = 0 then none
  else
    let alpha := s.beta2 / m.ip s.p (m.A s.p)
    let r := s.r - alpha • m.A s.p
    some { s with x := s.x + alpha • s.p, r := r, rold := r - s.rold }

/-- The next direction with preconditioner (613-622). -/
def direct (m : Method K V) (s : St K V) : Option (St K V) :=
  if s.beta2 = 0 then none
  else
    let Br := m.prec s.r
    some { s with p := Br + (m.ip s.rold Br / s.beta2) • s.p, beta2 := m.ip s.r Br, rold := s.r }

/-- The loop with preconditioner (605-622): the final vectors and the residuals. -/
def loop (m : Method K V) : Nat → St K V → Option (St K V × List K)
  | 0, s => some (s, [])
  | n + 1, s =>
    (advance m s).bind fun t =>
      let res := m.sqrt (m.ip t.r t.r)
      if res ≤ m.tol ∨ n = 0 then some (t, [res])
      else (direct m t).bind fun u => (loop m n u).map fun q => (q.1, res :: q.2)

/-- `flexible_cg` with preconditioner (571, 600-623); `n` is the smaller one of `maxiter` and the dimension. -/
def run (m : Method K V) (b x0 mem : V) (n : Nat) : Option (St K V × List K) :=
  let r := b - m.A x0
  let p := m.prec r
  let s : St K V := ⟨x0, r, p, mem, m.ip r p⟩
  let res := m.sqrt (m.ip r r)
  if res ≤ m.tol then some (s, [res]) else (loop m n s).map fun q => (q.1, res :: q.2)

/-- The next direction without preconditioner (592-597); `beta` is squared again. -/
def plainDirect (m : Method K V) (s : St K V) (beta : K) : Option (St K V) :=
  if s.beta2 = 0 then none
  else some { s with p := s.r + (beta * beta / s.beta2) • s.p, beta2 := m.ip s.r s.r, rold := s.r }

/-- The loop without preconditioner (580-597). -/
def plainLoop (m : Method K V) : Nat → St K V → Option (St K V × List K)
  | 0, s => some (s, [])
  | n + 1, s =>
    (advance m s).bind fun t =>
      let beta := m.sqrt (m.ip t.r t.rold)
      if beta ≤ m.tol ∨ n = 0 then some (t, [beta])
      else (plainDirect m t beta).bind fun u => (plainLoop m n u).map fun q => (q.1, beta :: q.2)

/-- `flexible_cg` without preconditioner (571-598). -/
def plain (m : Method K V) (b x0 mem : V) (n : Nat) : Option (St K V × List K) :=
  let r := b - m.A x0
  let beta := m.sqrt (m.ip r r)
  let s : St K V := ⟨x0, r, r, mem, beta * beta⟩
  if beta ≤ m.tol then some (s, [beta]) else (plainLoop m n s).map fun q => (q.1, beta :: q.2)

end PyNucleus.FlexibleCG
