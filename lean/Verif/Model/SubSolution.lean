import Verif.Model.Schur

/-!
# Solutions on parts of a mesh, and union of two meshes

Models `getSubSolution` (fem/PyNucleus_fem/mesh.py:3524-3540), `getRestrictionProlongationSubmesh`
(3550-3565), and `snapMeshes` (3676-3716).

Simplifications: dof maps are functions of the cell and the number within the cell; places of vertices
are elements of a type, and "within `eps`" is a relation (the tree of scipy is not modelled); a mesh
transformation is an optional value; `none` stands for a raised error.
-/

namespace PyNucleus.SubSolution

open PyNucleus.Spec PyNucleus.CSR PyNucleus.Schur

/-- The loops (3534-3539, 3555-3561). -/
def visit {σ : Type} (dpe : Nat) (sub glob : Nat → Nat → Int) (sel : List Nat) (f : σ → Nat → Nat → σ) (s : σ) : σ :=
  (List.range sel.length).foldl (fun s c => (List.range dpe).foldl (fun s k =>
    if 0 ≤ sub c k ∧ 0 ≤ glob (sel.getD c 0) k then
      f s (sub c k).toNat (glob (sel.getD c 0) k).toNat
    else s) s) s

variable {K : Type}

/-- `getSubSolution` (3524-3540); `n` is the number of dofs of the part. -/
def getSubSolution [Zero K] (dpe n : Nat) (sub glob : Nat → Nat → Int) (sel : List Nat) (x : List K) : List K :=
  visit dpe sub glob sel (fun y a b => y.set a (x.getD b 0)) (List.replicate n 0)

/-- `indices` (3553-3561). -/
def indices (dpe n : Nat) (sub glob : Nat → Nat → Int) (sel : List Nat) : List Nat :=
  visit dpe sub glob sel (fun ind a b => ind.set a b) (List.replicate n 0)

/-- `R` (3552-3563). -/
def restriction [One K] (dpe n N : Nat) (sub glob : Nat → Nat → Int) (sel : List Nat) : CSR K :=
  selection N (indices dpe n sub glob sel)

/-- `P` (3564); `u` and `v` are uninitialised arrays of `transpose`. -/
def prolongation [AddCommMonoid K] [One K] (dpe n N : Nat) (sub glob : Nat → Nat → Int) (sel : List Nat) (u : List Nat)
    (v : List K) : CSR K :=
  transpose (restriction dpe n N sub glob sel) u v

/-! ## Union of two meshes -/

structure Mesh (α τ : Type) where
  vertices : List α
  cells : List (List Nat)
  transformer : Option τ

section
variable {α τ : Type}

/-- `tree.query_ball_point` (3688). -/
def neighbors (near : α → α → Bool) (V : List α) (v : α) : List Nat :=
  (List.range V.length).filter fun i => match V[i]? with | some w => near w v | none => false

/-- The loop over the vertices of the second mesh (3687-3696), starting with `vertexCount`: the
translation and the vertices that are added. -/
def snapLoop (near : α → α → Bool) (V : List α) : Nat → List α → Option (List Nat × List α)
  | _, [] => some ([], [])
  | n, v :: l => match neighbors near V v with
    | [] => (snapLoop near V (n + 1) l).map fun r => (n :: r.1, v :: r.2)
    | [i] => (snapLoop near V n l).map fun r => (i :: r.1, r.2)
    | _ => none

/-- Transformations (3706-3711). -/
def transformerOf (a b : Option τ) : Option (Option τ) :=
  match a, b with
  | none, b => some b
  | a, none => some a
  | _, _ => none

/-- `snapMeshes` (3676-3712). -/
def snapMeshes (near : α → α → Bool) (m1 m2 : Mesh α τ) : Option (Mesh α τ) :=
  (snapLoop near m1.vertices m1.vertices.length m2.vertices).bind fun r =>
    (transformerOf m1.transformer m2.transformer).map fun t =>
      { vertices := m1.vertices ++ r.2
        cells := m1.cells ++ m2.cells.map fun c => c.map fun v => r.1.getD v 0
        transformer := t }

end

end PyNucleus.SubSolution
