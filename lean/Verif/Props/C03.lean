import Verif.Props.C04
import Mathlib.Algebra.Ring.Parity
import Mathlib.Data.List.Induction

/-!
# C03 Delete-on-hit dictionary keeps exactly the keys entered an odd number of times;
# or-on-hit dictionary keeps the bitwise or
-/

namespace PyNucleus.Props.C03

open PyNucleus.TupleDict PyNucleus.Spec PyNucleus.SortedRow PyNucleus.Props.C02
  PyNucleus.Props.C04

variable {V : Type} [OrOp V]

/-- A sequence of `enterValue` calls. -/
def enters (calls : List ((Nat × Int) × V)) : List (Op V) :=
  calls.map fun p => Op.enter p.1.1 p.1.2 p.2

/-- The values entered for key `k`, in order. -/
def valuesFor (calls : List ((Nat × Int) × V)) (k : Nat × Int) : List V :=
  (calls.filter fun p => p.1 = k).map Prod.snd

/-- No row receives more distinct columns than the 8 bit counters can record. -/
def RowsBounded (c : Config V) (calls : List ((Nat × Int) × V)) : Prop :=
  ∀ (I : Nat) (l : List Int), l.Nodup → (∀ J ∈ l, (I, J) ∈ calls.map Prod.fst) →
    l.length + c.lengthInc ≤ c.W

theorem edgeRun_snoc (mode : HitMode) (inv : V) (a : List (Op V)) (o : Op V) :
    ∀ m : EdgeMap V, (edgeRun mode inv m (a ++ [o])).1 =
      (edgeStep mode inv (edgeRun mode inv m a).1 o).1 := by
  induction a with
  | nil => intro m; rfl
  | cons x a ih => intro m; simp only [List.cons_append, edgeRun, ih]

omit [OrOp V] in
theorem valuesFor_snoc (calls : List ((Nat × Int) × V)) (p : (Nat × Int) × V) (k : Nat × Int) :
    valuesFor (calls ++ [p]) k = valuesFor calls k ++ (if p.1 = k then [p.2] else []) := by
  unfold valuesFor
  rw [List.filter_append, List.map_append]
  congr 1
  by_cases h : p.1 = k <;> simp [h]

/-- Abstract content in delete mode. -/
theorem edgeRun_delete (inv : V) (calls : List ((Nat × Int) × V)) (k : Nat × Int) :
    (edgeRun .delete inv (fun _ => none) (enters calls)).1 k =
      if (valuesFor calls k).length % 2 = 1 then (valuesFor calls k).getLast? else none := by
  induction calls using List.reverseRecOn with
  | nil => simp [enters, edgeRun, valuesFor]
  | append_singleton calls p ih =>
    have h : enters (calls ++ [p]) = enters calls ++ [Op.enter p.1.1 p.1.2 p.2] := by
      simp [enters]
    rw [h, edgeRun_snoc, valuesFor_snoc]
    by_cases hp : p.1 = k
    · subst hp
      simp only [edgeStep, if_true]
      rw [show (p.1.1, p.1.2) = p.1 from rfl, ih]
      by_cases hodd : (valuesFor calls p.1).length % 2 = 1
      · have hne : valuesFor calls p.1 ≠ [] := by
          intro e; rw [e] at hodd; simp at hodd
        rw [if_pos hodd, List.getLast?_eq_some_getLast hne]
        simp only [EdgeMap.put, if_true, List.length_append, List.length_cons, List.length_nil]
        rw [if_neg (by omega)]
      · rw [if_neg hodd]
        simp only [EdgeMap.put, if_true, List.length_append, List.length_cons, List.length_nil]
        rw [if_pos (by omega)]
        simp
    · rw [if_neg hp, List.append_nil, ← ih]
      have hk : ¬ (k = (p.1.1, p.1.2)) := fun e => hp e.symm
      simp only [edgeStep]
      cases hm : (edgeRun HitMode.delete inv (fun _ => none) (enters calls)).1 (p.1.1, p.1.2) <;>
        simp [EdgeMap.put, hk]

/-- Abstract content in or mode. -/
theorem edgeRun_or (inv : V) (calls : List ((Nat × Int) × V)) (k : Nat × Int) :
    (edgeRun .or inv (fun _ => none) (enters calls)).1 k =
      match valuesFor calls k with
      | [] => none
      | v :: vs => some (vs.foldl (· ||| ·) v) := by
  induction calls using List.reverseRecOn with
  | nil => simp [enters, edgeRun, valuesFor]
  | append_singleton calls p ih =>
    have h : enters (calls ++ [p]) = enters calls ++ [Op.enter p.1.1 p.1.2 p.2] := by
      simp [enters]
    rw [h, edgeRun_snoc, valuesFor_snoc]
    by_cases hp : p.1 = k
    · subst hp
      simp only [edgeStep, if_true]
      rw [show (p.1.1, p.1.2) = p.1 from rfl, ih]
      cases hv : valuesFor calls p.1 with
      | nil => simp [EdgeMap.put]
      | cons v vs => simp [EdgeMap.put, List.foldl_append]
    · rw [if_neg hp, List.append_nil, ← ih]
      have hk : ¬ (k = (p.1.1, p.1.2)) := fun e => hp e.symm
      simp only [edgeStep]
      cases hm : (edgeRun HitMode.or inv (fun _ => none) (enters calls)).1 (p.1.1, p.1.2) <;>
        simp [EdgeMap.put, hk]

/-- Keys present were entered, so the row bound transfers to every prefix. -/
theorem fits_enters (c : Config V) (calls : List ((Nat × Int) × V)) (hb : RowsBounded c calls) :
    ∀ pre, pre <+: enters calls →
      Fits c (edgeRun c.mode c.invalid (fun _ => none) pre).1 := by
  have hkeys : ∀ (cs : List ((Nat × Int) × V)) (k : Nat × Int),
      (edgeRun c.mode c.invalid (fun _ => none) (enters cs)).1 k ≠ none →
      k ∈ cs.map Prod.fst := by
    intro cs
    induction cs using List.reverseRecOn with
    | nil => intro k h; simp [enters, edgeRun] at h
    | append_singleton cs p ih =>
      intro k
      have h : enters (cs ++ [p]) = enters cs ++ [Op.enter p.1.1 p.1.2 p.2] := by
        simp [enters]
      rw [h, edgeRun_snoc]
      intro hk
      rw [List.map_append, List.mem_append]
      by_cases hkp : k = p.1
      · right; simp [hkp]
      · left
        apply ih
        intro hn
        apply hk
        simp only [edgeStep]
        have hk' : ¬ (k = (p.1.1, p.1.2)) := hkp
        cases hm : (edgeRun c.mode c.invalid (fun _ => none) (enters cs)).1 (p.1.1, p.1.2) with
        | none => simp [EdgeMap.put, hk', hn]
        | some o => cases hmd : c.mode <;> rw [hmd] at hn <;> simp [EdgeMap.put, hk', hn]
  intro pre hpre I l hnd hl
  obtain ⟨t, ht⟩ := hpre
  have : ∃ cs, pre = enters cs ∧ cs <+: calls := by
    refine ⟨calls.take pre.length, ?_, List.take_prefix _ _⟩
    have := congrArg (List.take pre.length) ht
    rw [List.take_left] at this
    rw [this]
    simp [enters, List.map_take]
  obtain ⟨cs, rfl, hcs⟩ := this
  apply hb I l hnd
  intro J hJ
  have := hkeys cs (I, J) (hl J hJ)
  obtain ⟨t', rfl⟩ := hcs
  rw [List.map_append]
  exact List.mem_append_left _ this

/-- With `deleteHits=True`, after any sequence of `enterValue` calls iteration returns
exactly the keys entered an odd number of times, each with the value of its last
`enterValue`. -/
theorem delete_hits_keeps_odd (c : Config V) (n : Nat) (hinc : 0 < c.lengthInc)
    (hdel : c.deleteHits = true) (calls : List ((Nat × Int) × V))
    (hrow : ∀ p ∈ calls, p.1.1 < n) (hb : RowsBounded c calls) :
    ∃ d outs L, run c (init c n) (enters calls) = some (d, outs) ∧
      iterate d (L.length + 1) (startIter d) = some (L, true) ∧
      (L.map Prod.fst).Nodup ∧
      ∀ k v, (k, v) ∈ L ↔ Odd (valuesFor calls k).length ∧ (valuesFor calls k).getLast? = some v := by
  have hmode : c.mode = .delete := by simp [Config.mode, hdel]
  obtain ⟨d, outs, L, h1, h2, h3, _, _⟩ := iteration_complete c n hinc (enters calls)
    (by
      intro op hop
      obtain ⟨p, hp, rfl⟩ := List.mem_map.1 hop
      exact hrow p hp) (fits_enters c calls hb)
  refine ⟨d, outs, L, h1, h2 _ (by omega), ?_, ?_⟩
  · unfold List.Nodup
    rw [List.pairwise_map]
    refine h3.sorted.imp ?_
    intro a b hab e
    rw [e] at hab
    rcases hab with h | h <;> omega
  · intro k v
    rw [h3.mem, hmode, edgeRun_delete, Nat.odd_iff]
    split <;> simp [*]

/-- A hit returns the stored value and removes the key; a miss stores and returns the new
value. -/
theorem delete_hits_returns_stored (c : Config V) (n : Nat) (hinc : 0 < c.lengthInc)
    (hdel : c.deleteHits = true) (calls : List ((Nat × Int) × V)) (I : Nat) (J : Int) (w : V)
    (hrow : ∀ p ∈ calls ++ [((I, J), w)], p.1.1 < n)
    (hb : RowsBounded c (calls ++ [((I, J), w)])) :
    ∃ d outs, run c (init c n) (enters (calls ++ [((I, J), w)])) = some (d, outs ++
      [if Odd (valuesFor calls (I, J)).length then
        ((valuesFor calls (I, J)).getLast?).getD w else w]) := by
  have hmode : c.mode = .delete := by simp [Config.mode, hdel]
  obtain ⟨d, h1, _⟩ := run_rel c n hinc (enters (calls ++ [((I, J), w)])) _ _ (rel_init c n)
    (by
      intro op hop
      obtain ⟨p, hp, rfl⟩ := List.mem_map.1 hop
      exact hrow p hp) (fits_enters c _ hb)
  refine ⟨d, (edgeRun c.mode c.invalid (fun _ => none) (enters calls)).2, ?_⟩
  rw [h1]
  have h : enters (calls ++ [((I, J), w)]) = enters calls ++ [Op.enter I J w] := by
    simp [enters]
  have happ : ∀ (a : List (Op V)) (o : Op V) (m : EdgeMap V),
      (edgeRun c.mode c.invalid m (a ++ [o])).2 = (edgeRun c.mode c.invalid m a).2 ++
        [(edgeStep c.mode c.invalid (edgeRun c.mode c.invalid m a).1 o).2] := by
    intro a o
    induction a with
    | nil => intro m; rfl
    | cons x a ih => intro m; simp only [List.cons_append, edgeRun, ih]
  rw [h, happ]
  congr 4
  simp only [edgeStep, hmode, edgeRun_delete, Nat.odd_iff]
  by_cases hodd : (valuesFor calls (I, J)).length % 2 = 1
  · have hne : valuesFor calls (I, J) ≠ [] := by
      intro e; rw [e] at hodd; simp at hodd
    rw [if_pos hodd, if_pos hodd, List.getLast?_eq_some_getLast hne]
    rfl
  · rw [if_neg hodd, if_neg hodd]

/-- With `logicalAndHits=True` (and `deleteHits=False`) the stored value of a key is the
bitwise or of all values entered for it. -/
theorem or_hits_accumulates (c : Config V) (n : Nat) (hinc : 0 < c.lengthInc)
    (hdel : c.deleteHits = false) (hor : c.logicalAndHits = true)
    (calls : List ((Nat × Int) × V))
    (hrow : ∀ p ∈ calls, p.1.1 < n) (hb : RowsBounded c calls) :
    ∃ d outs L, run c (init c n) (enters calls) = some (d, outs) ∧
      iterate d (L.length + 1) (startIter d) = some (L, true) ∧
      ∀ k v, (k, v) ∈ L ↔ ∃ x xs, valuesFor calls k = x :: xs ∧ v = xs.foldl (· ||| ·) x := by
  have hmode : c.mode = .or := by simp [Config.mode, hdel, hor]
  obtain ⟨d, outs, L, h1, h2, h3, _, _⟩ := iteration_complete c n hinc (enters calls)
    (by
      intro op hop
      obtain ⟨p, hp, rfl⟩ := List.mem_map.1 hop
      exact hrow p hp) (fits_enters c calls hb)
  refine ⟨d, outs, L, h1, h2 _ (by omega), ?_⟩
  intro k v
  rw [h3.mem, hmode, edgeRun_or]
  cases hv : valuesFor calls k with
  | nil => simp
  | cons x xs =>
    simp only [Option.some.injEq, List.cons.injEq]
    constructor
    · intro h; exact ⟨x, xs, ⟨rfl, rfl⟩, h.symm⟩
    · rintro ⟨x', xs', ⟨rfl, rfl⟩, h⟩; exact h.symm

/-- Two triangles sharing the edge `(1,2)`: the shared edge disappears. -/
def twoTriangles : List ((Nat × Int) × BitVec 32) :=
  [((0, 1), 0#32), ((1, 2), 0#32), ((0, 2), 0#32), ((1, 2), 1#32), ((2, 3), 1#32), ((1, 3), 1#32)]

def delConfig : Config (BitVec 32) := { sampleConfig with deleteHits := true }

example : RowsBounded delConfig twoTriangles := by
  intro I l hnd hl
  have hsub : l ⊆ [1, 2, 3] := by
    intro J hJ
    have := hl J hJ
    simp only [twoTriangles, List.map_cons, List.map_nil, List.mem_cons, Prod.mk.injEq,
      List.not_mem_nil, or_false] at this
    simp only [List.mem_cons, List.not_mem_nil, or_false]
    omega
  have hle := (List.subperm_of_subset hnd hsub).length_le
  have : [(1 : Int), 2, 3].length = 3 := rfl
  show l.length + 3 ≤ 256
  omega

example : ((run delConfig (init delConfig 4) (enters twoTriangles)).map fun p =>
    iterate p.1 10 (startIter p.1)) =
    some (some ([((0, 1), 0#32), ((0, 2), 0#32), ((1, 3), 1#32), ((2, 3), 1#32)], true)) := by
  decide +kernel

end PyNucleus.Props.C03
