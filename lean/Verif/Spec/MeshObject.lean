import Verif.Model.MeshObject

/-!
# What a mesh object should answer
-/

namespace PyNucleus.MeshObject

variable {P T : Type}

/-- The boundary as it has been set, or else as computed from the cells. -/
def facesOf (F : Compute P) (m : Obj P T) : List Face :=
  m.bf.getD (if m.mdim ≤ 2 then [] else F.faces m.vertices m.cells)

def edgesOf (F : Compute P) (m : Obj P T) : List Edge :=
  m.be.getD (if m.mdim = 1 then [] else if m.mdim = 2 then F.edges m.cells
    else F.edgesOfFaces (facesOf F m))

def verticesOf (F : Compute P) (m : Obj P T) : List Nat :=
  m.bv.getD (if 2 ≤ m.mdim then F.verticesOfEdges (edgesOf F m) else F.vertices m.cells)

/-- Everything that can be asked about vertices, cells, and the boundary. -/
structure Answers (P T : Type) where
  mdim : Nat
  vertices : List P
  cells : List (List Nat)
  bv : List Nat
  bvTags : List Int
  be : List Edge
  beTags : List Int
  bf : List Face
  bfTags : List Int

def answers (F : Compute P) (m : Obj P T) : Answers P T where
  mdim := m.mdim
  vertices := m.vertices
  cells := m.cells
  bv := verticesOf F m
  bvTags := m.bvTags.getD (List.replicate (verticesOf F m).length 0)
  be := edgesOf F m
  beTags := m.beTags.getD (List.replicate (edgesOf F m).length 0)
  bf := facesOf F m
  bfTags := m.bfTags.getD (List.replicate (facesOf F m).length 0)

/-- The interior vertices as cached, or else all vertices not on the boundary. -/
def interiorOf (F : Compute P) (m : Obj P T) : List Nat :=
  m.interior.getD ((List.range m.vertices.length).filter fun v => decide (v ∉ verticesOf F m))

/-- Tags are only set together with entities, one per entity. -/
structure Consistent (m : Obj P T) : Prop where
  vertices : ∀ t, m.bvTags = some t → ∃ l, m.bv = some l ∧ l.length = t.length
  edges : ∀ t, m.beTags = some t → ∃ l, m.be = some l ∧ l.length = t.length
  faces : ∀ t, m.bfTags = some t → ∃ l, m.bf = some l ∧ l.length = t.length

/-- The tags an argument asks for. -/
def TagArg.Asks : TagArg → Int → Prop
  | .all, _ => True
  | .one a, t => t = a
  | .many l, t => l.head? = some none ∨ some t ∈ l

/-- The entities with the tags that are asked for, in their order. -/
noncomputable def selected {α : Type} (l : List α) (tags : List Int) (a : TagArg) : List α :=
  open Classical in ((l.zip tags).filter fun p => decide (a.Asks p.2)).map Prod.fst

end PyNucleus.MeshObject
