import Verif.Proof.TupleDictIter
import Verif.Props.C02

/-!
# C04 Iteration over the dictionary lists every key once in order; pickling is lossless
-/

namespace PyNucleus.Props.C04

open PyNucleus.TupleDict PyNucleus.Spec PyNucleus.SortedRow PyNucleus.Props.C02

variable {V : Type} [OrOp V]

/-- `L` lists exactly the pairs of the map `m`, in strictly increasing lexicographic order of
the keys. -/
structure Lists (L : List ((Nat × Int) × V)) (m : EdgeMap V) : Prop where
  sorted : L.Pairwise fun a b => a.1.1 < b.1.1 ∨ (a.1.1 = b.1.1 ∧ a.1.2 < b.1.2)
  mem : ∀ k v, (k, v) ∈ L ↔ m k = some v

omit [OrOp V] in
theorem lists_of_rel {n : Nat} {d : Dict V} {m : EdgeMap V} (h2 : Rel n d m) :
    Lists (itemsFrom d.rows 0) m where
  sorted := itemsFrom_sorted d.rows h2.wf _ 0 rfl
  mem := by
    intro k v
    rw [itemsFrom_mem d.rows k v _ 0 rfl]
    constructor
    · rintro ⟨_, hk, hv⟩
      exact (h2.repr k.1 hk k.2 v).1 hv
    · intro hv
      by_cases hlt : k.1 < d.rows.length
      · exact ⟨Nat.zero_le _, hlt, (h2.repr k.1 hlt k.2 v).2 hv⟩
      · have := h2.out k.1 (by rw [← h2.len]; omega) k.2
        rw [show m k = m (k.1, k.2) from rfl, this] at hv
        cases hv

/-- After any admissible history, `startIter` followed by calls of `next` returns every
stored pair exactly once in key order and then reports the end; `getData` returns the same
columns and values in the same order. -/
theorem iteration_complete (c : Config V) (n : Nat) (hinc : 0 < c.lengthInc)
    (ops : List (Op V)) (hrow : ∀ op ∈ ops, opRow op < n)
    (hfit : ∀ pre, pre <+: ops → Fits c (edgeRun c.mode c.invalid (fun _ => none) pre).1) :
    ∃ d outs L, run c (init c n) ops = some (d, outs) ∧
      (∀ fuel, L.length < fuel → iterate d fuel (startIter d) = some (L, true)) ∧
      Lists L (edgeRun c.mode c.invalid (fun _ => none) ops).1 ∧
      d.nnz = L.length ∧
      getData d = L.map fun p => (p.1.2, p.2) := by
  obtain ⟨d, h1, h2⟩ := run_rel c n hinc ops _ _ (rel_init c n) hrow hfit
  refine ⟨d, _, itemsFrom d.rows 0, h1, ?_, lists_of_rel h2, ?_, ?_⟩
  · intro fuel hf
    exact iterate_from d h2.wf _ 0 fuel rfl hf
  · rw [itemsFrom_length d h2.wf]; exact h2.nnz
  · have := itemsFrom_data d.rows _ 0 rfl
    rw [List.drop_zero] at this
    exact this.symm

/-- Pickling and unpickling (`__getstate__`, `__setstate__`) after any admissible history
gives a dictionary that answers every further admissible history as the original would. -/
theorem pickle_roundtrip (c : Config V) (n : Nat) (hinc : 0 < c.lengthInc)
    (ops ops' : List (Op V)) (hrow : ∀ op ∈ ops ++ ops', opRow op < n)
    (hfit : ∀ pre, pre <+: ops ++ ops' →
      Fits c (edgeRun c.mode c.invalid (fun _ => none) pre).1) :
    ∃ d outs, run c (init c n) ops = some (d, outs) ∧
      (setState (getState d)).nnz = d.nnz ∧
      (run c (setState (getState d)) ops').map Prod.snd = (run c d ops').map Prod.snd ∧
      (run c d ops').isSome := by
  have happ : ∀ (a b : List (Op V)) (m : EdgeMap V),
      (edgeRun c.mode c.invalid m (a ++ b)).1 =
        (edgeRun c.mode c.invalid (edgeRun c.mode c.invalid m a).1 b).1 := by
    intro a b
    induction a with
    | nil => intro m; rfl
    | cons o a ih => intro m; simp only [List.cons_append, edgeRun, ih]
  obtain ⟨d, h1, h2⟩ := run_rel c n hinc ops _ _ (rel_init c n)
    (fun o ho => hrow o (List.mem_append_left _ ho))
    (fun pre hp => hfit pre (hp.trans (List.prefix_append _ _)))
  have hf' : ∀ pre, pre <+: ops' → Fits c (edgeRun c.mode c.invalid
      (edgeRun c.mode c.invalid (fun _ => none) ops).1 pre).1 := by
    intro pre hp
    rw [← happ]
    obtain ⟨t, rfl⟩ := hp
    exact hfit (ops ++ pre) ⟨t, by simp⟩
  have hr' : ∀ o ∈ ops', opRow o < n := fun o ho => hrow o (List.mem_append_right _ ho)
  obtain ⟨d1, g1, _⟩ := run_rel c n hinc ops' d _ h2 hr' hf'
  obtain ⟨d2, g2, _⟩ := run_rel c n hinc ops' _ _ (rel_setState h2) hr' hf'
  refine ⟨d, _, h1, ?_, by rw [g1, g2]; rfl, by rw [g1]; rfl⟩
  have e1 := h2.nnz
  have e2 := itemsFrom_length d h2.wf
  have e3 := itemsFrom_data d.rows _ 0 rfl
  rw [List.drop_zero] at e3
  rw [e1, ← e2]
  show ((getData d).length : Int) = _
  unfold getData
  rw [← e3, List.length_map]

example : ((run sampleConfig (init sampleConfig 4) sampleOps).map fun p =>
    iterate p.1 10 (startIter p.1)) =
    some (some ([((0, 5), 10#32), ((1, 7), 13#32)], true)) := by decide +kernel

end PyNucleus.Props.C04
