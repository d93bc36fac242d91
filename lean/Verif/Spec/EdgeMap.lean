import Verif.Model.TupleDict

/-! # Abstract edge map

Specification of `tupleDict`: a partial map from pairs `(I, J)` to values. -/

namespace PyNucleus.Spec

open PyNucleus.TupleDict (Op)

/-- A partial map. -/
abbrev EdgeMap (V : Type) := Nat × Int → Option V

/-- The map with the value at `k` replaced. -/
def EdgeMap.put {V : Type} (m : EdgeMap V) (k : Nat × Int) (v : Option V) : EdgeMap V :=
  fun k' => if k' = k then v else m k'

/-- What a hit in `enterValue` does. -/
inductive HitMode where
  | keep    -- default: the old value stays
  | delete  -- deleteHits
  | or      -- logicalAndHits
deriving DecidableEq

/-- One call on the abstract map: new map and returned value. -/
def edgeStep {V : Type} [OrOp V] (mode : HitMode) (invalid : V) (m : EdgeMap V) :
    Op V → EdgeMap V × V
  | .enter I J val =>
    match m (I, J) with
    | none => (m.put (I, J) (some val), val)
    | some old =>
      match mode with
      | .keep => (m, old)
      | .delete => (m.put (I, J) none, old)
      | .or => (m.put (I, J) (some (old ||| val)), old ||| val)
  | .remove I J =>
    match m (I, J) with
    | none => (m, invalid)
    | some old => (m.put (I, J) none, old)
  | .get I J => (m, (m (I, J)).getD invalid)

/-- A history of calls on the abstract map. -/
def edgeRun {V : Type} [OrOp V] (mode : HitMode) (invalid : V) (m : EdgeMap V) :
    List (Op V) → EdgeMap V × List V
  | [] => (m, [])
  | op :: ops =>
    let p := edgeStep mode invalid m op
    let q := edgeRun mode invalid p.1 ops
    (q.1, p.2 :: q.2)

/-- The row a call addresses. -/
def opRow {V : Type} : Op V → Nat
  | .enter I _ _ => I
  | .remove I _ => I
  | .get I _ => I

/-- No row of the abstract map has more keys than the `LENGTH_t` counters of the class can
record (`W` is the modulus of `LENGTH_t`). -/
def Fits {V : Type} (c : PyNucleus.TupleDict.Config V) (m : EdgeMap V) : Prop :=
  ∀ (I : Nat) (l : List Int), l.Nodup → (∀ J ∈ l, m (I, J) ≠ none) → l.length + c.lengthInc ≤ c.W

/-- Mode selected by the constructor flags. -/
def _root_.PyNucleus.TupleDict.Config.mode {V : Type} (c : PyNucleus.TupleDict.Config V) : HitMode :=
  if c.deleteHits then .delete else if c.logicalAndHits then .or else .keep

end PyNucleus.Spec
