import Verif.Props.C02
import Verif.Props.C01

/-!
# C49 Growing a row never writes outside its allocation

Full statement: for every history of calls on existing rows, `run` returns `some`.
It is false: the capacity of a row is kept in 8 bits, and the 256th key of one row makes it
wrap before the memory is reallocated.
-/

namespace PyNucleus.Props.C49

open PyNucleus.TupleDict PyNucleus.Spec PyNucleus.SortedRow PyNucleus.Props.C02

/-- Edges from vertex 0 to the vertices `1, ..., n` (a fan of triangles around vertex 0). -/
def fan (n : Nat) : List (Op (BitVec 32)) :=
  (List.range n).map fun k => Op.enter 0 ((k : Int) + 1) 0#32

set_option maxRecDepth 100000 in
/-- Entering 256 edges that share their smaller vertex touches memory outside the
allocation of the row. -/
theorem edge_dict_overflow : run sampleConfig (init sampleConfig 1) (fan 256) = none := by
  decide +kernel

/-- The constructor argument `length_inc = 0` fails on the first insertion. -/
theorem edge_dict_zero_increment :
    run { sampleConfig with lengthInc := 0 } (init sampleConfig 1) (fan 1) = none := by
  decide +kernel

/-- The constructor argument `initial_length = 0` of a sparsity pattern fails on the first
insertion. -/
theorem pattern_zero_initial_length :
    (PyNucleus.SparsityPattern.SP.init 1 0).add 0 0 = none := by decide

/-- Memory safety holds as long as no row holds more than `W - length_inc` keys.
Missing for the full statement: rows with more keys, where the code does overflow. -/
theorem edge_dict_no_overflow_partial {V : Type} [OrOp V] (c : Config V) (n : Nat)
    (hinc : 0 < c.lengthInc) (ops : List (Op V)) (hrow : ∀ op ∈ ops, opRow op < n)
    (hfit : ∀ pre, pre <+: ops → Fits c (edgeRun c.mode c.invalid (fun _ => none) pre).1) :
    (run c (init c n) ops).isSome := by
  obtain ⟨d, h, _⟩ := dict_refines_map c n hinc ops hrow hfit
  rw [h]; rfl

example : (∀ op ∈ fan 100, opRow op < 1) ∧ ∀ pre, pre <+: fan 100 →
    Fits sampleConfig (edgeRun sampleConfig.mode sampleConfig.invalid (fun _ => none) pre).1 :=
  ⟨by decide, fits_of_bound sampleConfig (fan 100) 100 (by decide) (by simp [fan])⟩

end PyNucleus.Props.C49
