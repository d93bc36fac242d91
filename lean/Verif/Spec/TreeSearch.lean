import Verif.Model.TreeSearch
import Mathlib.Algebra.BigOperators.Group.Finset.Basic

/-!
# Distances and search, without loops
-/

namespace PyNucleus.TreeSearch

/-- Square of the distance. -/
noncomputable def sqDist (n : Nat) (p v : Vec) : ℝ := ∑ i ∈ Finset.range n, (p i - v i) ^ 2

/-- The closed box. -/
def InBox (n : Nat) (box : Box) (p : Vec) : Prop := ∀ i < n, (box i).1 ≤ p i ∧ p i ≤ (box i).2

/-- The points of edge `i` of a triangle. -/
def edgePoint (s : Triangle) (i : Nat) (t : ℝ) : Vec := fun j => s i j + t * (s ((i + 1) % 3) j - s i j)

mutual
/-- All ways from the root to a leaf: the boxes on the way and the cells of the leaf. -/
def Node.ways : Node → List (List Box × List Nat)
  | .leaf b cs => [([b], cs)]
  | .inner b l => (waysList l).map fun w => (b :: w.1, w.2)

def waysList : List Node → List (List Box × List Nat)
  | [] => []
  | c :: l => c.ways ++ waysList l
end

end PyNucleus.TreeSearch
