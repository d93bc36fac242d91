import Verif.Model.Refine

/-!
# Model of the refinement of the boundary

/repo/fem/PyNucleus_fem/meshCy.pyx 533-558 and 1435-1515.  Keys `encode_edge(e)` of the table are the pair `e` (C14).  Tags are integers.
-/

namespace PyNucleus.Refine

/-- New boundary: vertices, their tags, edges, their tags. -/
abbrev Boundary2 := List Nat × List Int × List (Nat × Nat) × List Int

/-- Two dimensions, 538-558: all boundary vertices and edges with tags of the refined mesh. -/
def newBoundary2D (lookup : List ((Nat × Nat) × Nat)) (bV : List Nat) (tV : List Int) (bE : List (Nat × Nat)) (tE : List Int) : Option Boundary2 := do
  let nv ← bE.mapM fun e => dget lookup (sortEdge e.1 e.2)
  pure (bV ++ nv, tV ++ tE.take bE.length,
    ((bE.zip nv).flatMap fun p => [(p.1.1, p.2), (p.2, p.1.2)]), (tE.take bE.length).flatMap fun t => [t, t])

/-- The pair with the smaller number first, 1497-1508. -/
def ordered (a b : Nat) : Nat × Nat := if a < b then (a, b) else (b, a)

/-- One face, 1472-1508: `e` is written first, then sorted in place, three times.  `e` is the last row of the boundary edges of the mesh that is
refined if there is one (1457), then the state is changed. -/
def face3 (lookup : List ((Nat × Nat) × Nat)) (bE : List (Nat × Nat)) (f : Nat × Nat × Nat) : Option (List (Nat × Nat) × List (Nat × Nat × Nat) × List (Nat × Nat)) := do
  let last := bE.length - 1
  let bE := bE.set last (sortEdge f.1 f.2.1)
  let nv01 ← dget lookup (sortEdge f.1 f.2.1)
  let bE := bE.set last (sortEdge f.2.1 f.2.2)
  let nv12 ← dget lookup (sortEdge f.2.1 f.2.2)
  let bE := bE.set last (sortEdge f.1 f.2.2)
  let nv02 ← dget lookup (sortEdge f.1 f.2.2)
  pure (bE, [(f.1, nv01, nv02), (f.2.1, nv12, nv01), (f.2.2, nv02, nv12), (nv01, nv12, nv02)], [ordered nv01 nv12, ordered nv12 nv02, ordered nv02 nv01])

/-- All faces, 1470-1509. -/
def faces3 (lookup : List ((Nat × Nat) × Nat)) : List (Nat × Nat × Nat) → List (Nat × Nat) → Option (List (Nat × Nat) × List (Nat × Nat × Nat) × List (Nat × Nat))
  | [], bE => some (bE, [], [])
  | f :: fs, bE => do
    let s ← face3 lookup bE f
    let r ← faces3 lookup fs s.1
    pure (r.1, s.2.1 ++ r.2.1, s.2.2 ++ r.2.2)

/-- New boundary: vertices, tags, edges, tags, faces, tags. -/
structure Boundary3 where
  vertices : List Nat
  vertexTags : List Int
  edges : List (Nat × Nat)
  edgeTags : List Int
  faces : List (Nat × Nat × Nat)
  faceTags : List Int
deriving DecidableEq

/-- `newBoundaryAndTags3D`, 1435-1515; also the boundary edges of the caller after the call. -/
def newBoundary3D (lookup : List ((Nat × Nat) × Nat)) (bE : List (Nat × Nat)) (tE : List Int) (bF : List (Nat × Nat × Nat)) (tF : List Int) : Option (Boundary3 × List (Nat × Nat)) := do
  let nv ← bE.mapM fun e => dget lookup e
  let r ← faces3 lookup bF bE
  pure (⟨nv, tE.take bE.length, ((bE.zip nv).flatMap fun p => [(p.1.1, p.2), (p.1.2, p.2)]) ++ r.2.2,
    ((tE.take bE.length).flatMap fun t => [t, t]) ++ ((tF.take bF.length).flatMap fun t => [t, t, t]),
    r.2.1, (tF.take bF.length).flatMap fun t => [t, t, t, t]⟩, r.1)

end PyNucleus.Refine
