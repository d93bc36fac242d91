import Verif.Model.FaceVals

/-! # Abstract map from faces to numbers -/

namespace PyNucleus.Spec

open PyNucleus.FaceVals (Op)

/-- A partial map from triples to numbers. -/
abbrev FaceMap := Int × Int × Int → Option Int

/-- The map with the value at `k` replaced. -/
def FaceMap.put (m : FaceMap) (k : Int × Int × Int) (v : Option Int) : FaceMap := fun k' => if k' = k then v else m k'

/-- One call: an entry of a key that is present returns the value of the map, and removes it with `deleteHits`. -/
def faceStep (deleteHits : Bool) (m : FaceMap) : Op → FaceMap × Int
  | .enter I J K val =>
    match m (I, J, K) with
    | none => (m.put (I, J, K) (some val), val)
    | some old => (if deleteHits then m.put (I, J, K) none else m, old)
  | .get I J K => (m, (m (I, J, K)).getD (-1))

/-- A history of calls. -/
def faceRun (deleteHits : Bool) (m : FaceMap) : List Op → FaceMap × List Int
  | [] => (m, [])
  | op :: ops =>
    ((faceRun deleteHits (faceStep deleteHits m op).1 ops).1,
      (faceStep deleteHits m op).2 :: (faceRun deleteHits (faceStep deleteHits m op).1 ops).2)

/-- The first number of the key of a call. -/
def faceRow : Op → Int
  | .enter I _ _ _ => I
  | .get I _ _ => I

/-- At most 255 keys of the map have the same first number. -/
def FaceFits (m : FaceMap) : Prop :=
  ∀ (I : Int) (l : List (Int × Int)), l.Nodup → (∀ k ∈ l, m (I, k) ≠ none) → l.length ≤ 255

end PyNucleus.Spec
