import Verif.Spec.CSR
import Verif.Model.SparsityPattern

/-! Lemmas on the CSR layout produced by prefix sums and concatenation. -/

namespace PyNucleus.Spec

open PyNucleus.SparsityPattern (indptrFrom)

theorem indptrFrom_length : ∀ (k : Nat) (cs : List Nat), (indptrFrom k cs).length = cs.length + 1
  | _, [] => rfl
  | k, c :: cs => by simp [indptrFrom, indptrFrom_length (k + c) cs]

theorem indptrFrom_getD : ∀ (cs : List Nat) (k i : Nat), i ≤ cs.length →
    (indptrFrom k cs).getD i 0 = k + (cs.take i).sum
  | [], k, i, h => by
    have : i = 0 := by simpa using h
    subst this; simp [indptrFrom]
  | c :: cs, k, 0, _ => by simp [indptrFrom]
  | c :: cs, k, i + 1, h => by
    have := indptrFrom_getD cs (k + c) i (by simpa using h)
    simp only [indptrFrom, List.getD_cons_succ, this, List.take_succ_cons, List.sum_cons]
    omega

theorem take_map_length_sum {α : Type} (L : List (List α)) (i : Nat) :
    ((L.map List.length).take i).sum = (L.take i).flatten.length := by
  rw [List.length_flatten, List.map_take]

theorem csrRow_flatten {α : Type} (L : List (List α)) (i : Nat) (h : i < L.length) :
    csrRow (indptrFrom 0 (L.map List.length)) L.flatten i = L[i] := by
  unfold csrRow
  rw [indptrFrom_getD _ _ _ (by simp; omega), indptrFrom_getD _ _ _ (by simp; omega)]
  simp only [Nat.zero_add, take_map_length_sum]
  have e1 : L.flatten = (L.take i).flatten ++ (L[i] ++ (L.drop (i + 1)).flatten) := by
    conv => lhs; rw [← List.take_append_drop i L]
    rw [List.flatten_append, List.drop_eq_getElem_cons h, List.flatten_cons]
  have e2 : (L.take (i + 1)).flatten.length - (L.take i).flatten.length = L[i].length := by
    rw [List.take_succ_eq_append_getElem h, List.flatten_append, List.length_append]
    simp
  rw [e2, e1, List.drop_left, List.take_left]

theorem validIndptr_indptrFrom {α : Type} (L : List (List α)) :
    ValidIndptr (indptrFrom 0 (L.map List.length)) L.length L.flatten.length where
  length := by rw [indptrFrom_length]; simp
  first := by cases L <;> simp [indptrFrom]
  last := by
    have h := indptrFrom_getD (L.map List.length) 0 L.length (by simp)
    rw [take_map_length_sum, List.take_length, Nat.zero_add] at h
    have hl : L.length < (indptrFrom 0 (L.map List.length)).length := by
      rw [indptrFrom_length]; simp
    rw [List.getD_eq_getElem?_getD, List.getElem?_eq_getElem hl] at h
    rw [List.getElem?_eq_getElem hl]
    simpa using h
  mono := by
    intro i hi
    rw [indptrFrom_getD _ _ _ (by simp; omega), indptrFrom_getD _ _ _ (by simp; omega)]
    simp only [Nat.zero_add, take_map_length_sum]
    rw [List.take_succ_eq_append_getElem hi, List.flatten_append, List.length_append]
    omega

end PyNucleus.Spec
