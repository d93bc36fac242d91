import Verif.Model.SubSolution
import Verif.Proof.Schur
import Verif.Props.C08
import Verif.Props.C09
import Mathlib.Data.List.GetD

namespace PyNucleus.SubSolution

open PyNucleus.Spec PyNucleus.CSR PyNucleus.Schur

/-- The pairs of dofs in the order of the loops. -/
def hits (dpe : Nat) (sub glob : Nat → Nat → Int) (sel : List Nat) : List (Nat × Nat) :=
  (List.range sel.length).flatMap fun c => (List.range dpe).filterMap fun k =>
    if 0 ≤ sub c k ∧ 0 ≤ glob (sel.getD c 0) k then
      some ((sub c k).toNat, (glob (sel.getD c 0) k).toNat) else none

theorem visit_eq {σ : Type} (dpe : Nat) (sub glob : Nat → Nat → Int) (sel : List Nat)
    (f : σ → Nat → Nat → σ) (s : σ) :
    visit dpe sub glob sel f s = (hits dpe sub glob sel).foldl (fun s p => f s p.1 p.2) s := by
  unfold visit hits
  rw [List.foldl_flatMap]
  congr 1
  funext s c
  rw [List.foldl_filterMap]
  congr 1
  funext s k
  split <;> rfl

theorem mem_hits (dpe : Nat) (sub glob : Nat → Nat → Int) (sel : List Nat) (a b : Nat) :
    (a, b) ∈ hits dpe sub glob sel ↔ ∃ c k, c < sel.length ∧ k < dpe ∧ sub c k = a ∧
      glob (sel.getD c 0) k = b := by
  unfold hits
  simp only [List.mem_flatMap, List.mem_range, List.mem_filterMap]
  constructor
  · rintro ⟨c, hc, k, hk, h⟩
    split at h
    · rename_i hp
      simp only [Option.some.injEq, Prod.mk.injEq] at h
      exact ⟨c, k, hc, hk, by omega, by omega⟩
    · cases h
  · rintro ⟨c, k, hc, hk, h1, h2⟩
    refine ⟨c, hc, k, hk, ?_⟩
    rw [if_pos ⟨by omega, by omega⟩, h1, h2]
    simp

theorem length_foldl_set {β : Type} (g : Nat → β) (l : List (Nat × Nat)) (z : List β) :
    (l.foldl (fun s p => s.set p.1 (g p.2)) z).length = z.length := by
  induction l generalizing z with
  | nil => rfl
  | cons p l ih => rw [List.foldl_cons, ih, List.length_set]

theorem foldl_set_other {β : Type} (g : Nat → β) (l : List (Nat × Nat)) (z : List β) (a : Nat) (d : β)
    (h : ∀ b, (a, b) ∉ l) : (l.foldl (fun s p => s.set p.1 (g p.2)) z).getD a d = z.getD a d := by
  induction l generalizing z with
  | nil => rfl
  | cons p l ih =>
    rw [List.foldl_cons, ih _ fun b hb => h b (by simp [hb])]
    have : p.1 ≠ a := fun e => h p.2 (by rw [← e]; simp)
    simp [List.getD_eq_getElem?_getD, List.getElem?_set, this]

theorem foldl_set_hit {β : Type} (g : Nat → β) (l : List (Nat × Nat)) (z : List β) (a b : Nat) (d : β)
    (hab : (a, b) ∈ l) (hu : ∀ b', (a, b') ∈ l → b' = b) (ha : a < z.length) :
    (l.foldl (fun s p => s.set p.1 (g p.2)) z).getD a d = g b := by
  induction l generalizing z with
  | nil => cases hab
  | cons p l ih =>
    rw [List.foldl_cons]
    by_cases hl : (a, b) ∈ l
    · exact ih _ hl (fun b' hb' => hu b' (by simp [hb'])) (by simpa using ha)
    · have hp : p = (a, b) := by
        rcases List.mem_cons.1 hab with h | h
        · exact h.symm
        · exact absurd h hl
      subst hp
      rw [foldl_set_other]
      · simp [List.getD_eq_getElem?_getD, List.getElem?_set, ha]
      · intro b' hb'
        have := hu b' (by simp [hb'])
        subst this
        exact hl hb'

/-! ## Union of two meshes -/

section
variable {α : Type}

theorem mem_neighbors (near : α → α → Bool) (V : List α) (v : α) (i : Nat) :
    i ∈ neighbors near V v ↔ ∃ w, V[i]? = some w ∧ near w v = true := by
  unfold neighbors
  rw [List.mem_filter, List.mem_range]
  constructor
  · rintro ⟨hi, h⟩
    rw [List.getElem?_eq_getElem hi] at h ⊢
    exact ⟨_, rfl, h⟩
  · rintro ⟨w, hw, h⟩
    refine ⟨(List.getElem?_eq_some_iff.1 hw).1, ?_⟩
    rw [hw]; exact h

theorem neighbors_nodup (near : α → α → Bool) (V : List α) (v : α) : (neighbors near V v).Nodup :=
  List.nodup_range.filter _

theorem snapLoop_isSome (near : α → α → Bool) (V : List α) (n : Nat) (l : List α) :
    (snapLoop near V n l).isSome = true ↔ ∀ v ∈ l, (neighbors near V v).length ≤ 1 := by
  induction l generalizing n with
  | nil => simp [snapLoop]
  | cons v l ih =>
    rw [snapLoop]
    match h : neighbors near V v with
    | [] => simp [h, ih]
    | [i] => simp [h, ih]
    | _ :: _ :: _ => simp [h]

/-- Numbers and places of the vertices of the second mesh. -/
theorem snapLoop_spec (near : α → α → Bool) (V : List α) (pre : List α) (l : List α) (r : List Nat × List α)
    (h : snapLoop near V (V.length + pre.length) l = some r) :
    r.1.length = l.length ∧ (∀ w ∈ r.2, neighbors near V w = [] ∧ w ∈ l) ∧
    ∀ (i : Nat) (v : α), l[i]? = some v →
      (neighbors near V v = [r.1.getD i 0] ∧ r.1.getD i 0 < V.length) ∨
      (neighbors near V v = [] ∧ V.length + pre.length ≤ r.1.getD i 0 ∧
        (V ++ pre ++ r.2)[r.1.getD i 0]? = some v ∧
        ∀ (j : Nat), j < i → r.1.getD j 0 ≠ r.1.getD i 0) := by
  induction l generalizing pre r with
  | nil =>
    simp only [snapLoop, Option.some.injEq] at h
    subst h
    simp
  | cons v l ih =>
    rw [snapLoop] at h
    match hn : neighbors near V v, h with
    | [], h =>
      simp only [Option.map_eq_some_iff] at h
      obtain ⟨q, hq, rfl⟩ := h
      have hq' : snapLoop near V (V.length + (pre ++ [v]).length) l = some q := by
        rw [← hq]; congr 1; simp; omega
      obtain ⟨h1, h2, h3⟩ := ih (pre ++ [v]) q hq'
      refine ⟨by simp [h1], ?_, ?_⟩
      · intro w hw
        rcases List.mem_cons.1 hw with rfl | hw
        · exact ⟨hn, by simp⟩
        · exact ⟨(h2 w hw).1, by simp [(h2 w hw).2]⟩
      · intro i u hi
        cases i with
        | zero =>
          simp only [List.getElem?_cons_zero, Option.some.injEq] at hi
          subst hi
          right
          refine ⟨hn, by simp, ?_, by intro j hj; omega⟩
          simp only [List.getD_cons_zero, List.append_assoc]
          rw [List.getElem?_append_right (by omega), List.getElem?_append_right (by omega)]
          simp
        | succ i =>
          rw [List.getElem?_cons_succ] at hi
          rcases h3 i u hi with hc | ⟨a, b, c, d⟩
          · left; simpa using hc
          · right
            simp only [List.length_append, List.length_singleton] at b
            refine ⟨a, by simp only [List.getD_cons_succ]; omega, ?_, ?_⟩
            · simp only [List.getD_cons_succ]
              rw [← c]; simp
            · intro j hj
              cases j with
              | zero => simp only [List.getD_cons_zero, List.getD_cons_succ]; omega
              | succ j => simpa using d j (by omega)
    | [k], h =>
      simp only [Option.map_eq_some_iff] at h
      obtain ⟨q, hq, rfl⟩ := h
      obtain ⟨h1, h2, h3⟩ := ih pre q hq
      have hk : k < V.length := by
        obtain ⟨w, hw, _⟩ := (mem_neighbors near V v k).1 (by rw [hn]; simp)
        exact (List.getElem?_eq_some_iff.1 hw).1
      refine ⟨by simp [h1], fun w hw => ⟨(h2 w hw).1, by simp [(h2 w hw).2]⟩, ?_⟩
      intro i u hi
      cases i with
      | zero =>
        simp only [List.getElem?_cons_zero, Option.some.injEq] at hi
        subst hi
        left; exact ⟨by simpa using hn, by simpa using hk⟩
      | succ i =>
        rw [List.getElem?_cons_succ] at hi
        rcases h3 i u hi with hc | ⟨a, b, c, d⟩
        · left; simpa using hc
        · right
          refine ⟨a, by simpa using b, by simpa using c, ?_⟩
          intro j hj
          cases j with
          | zero => simp only [List.getD_cons_zero, List.getD_cons_succ]; omega
          | succ j => simpa using d j (by omega)
    | _ :: _ :: _, h => cases h

end

end PyNucleus.SubSolution
