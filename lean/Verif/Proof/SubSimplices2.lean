import Verif.Proof.SubSimplices
import Mathlib.LinearAlgebra.Matrix.Determinant.Basic

namespace PyNucleus.Interaction

variable {K : Type} [Field K] [LinearOrder K] [IsStrictOrderedRing K] {ind : Nat → Bool} {fi : Nat → Nat → List K} {bary : Option (Nat → K)}

/-- The cases of `node2`. -/
theorem node2_cases (ind : Nat → Bool) (fi : Nat → Nat → List K) (m : K × K) (bary : Option (Nat → K)) (s : Simplex K) :
    ((∀ i, i < 3 → ind i = false) ∧ node2 ind fi m bary s = node2none fi m bary [0, 1, 2]) ∨
    (∃ i o1 o2, Cyclic i o1 o2 ∧ ind i = true ∧ ind o1 = false ∧ ind o2 = false ∧ node2 ind fi m bary s = node2one fi m bary i o1 o2) ∨
    (∃ o i1 i2, Cyclic o i1 i2 ∧ ind o = false ∧ ind i1 = true ∧ ind i2 = true ∧ node2 ind fi m bary s = node2two fi m bary s o i1 i2) ∨
    ((∀ i, i < 3 → ind i = true) ∧ node2 ind fi m bary s = [⟨entries [(0, 0, 1), (1, 1, 1), (2, 2, 1)], 1⟩]) := by
  have hr : List.range 3 = [0, 1, 2] := rfl
  rcases h0 : ind 0 with _ | _ <;> rcases h1 : ind 1 with _ | _ <;> rcases h2 : ind 2 with _ | _
  · exact .inl ⟨three _ h0 h1 h2, by simp [node2, hr, h0, h1, h2]⟩
  · exact .inr (.inl ⟨2, 0, 1, .inr (.inr ⟨rfl, rfl, rfl⟩), h2, h0, h1, by simp [node2, hr, h0, h1, h2, first, List.findIdx_cons]⟩)
  · exact .inr (.inl ⟨1, 2, 0, .inr (.inl ⟨rfl, rfl, rfl⟩), h1, h2, h0, by simp [node2, hr, h0, h1, h2, first, List.findIdx_cons]⟩)
  · exact .inr (.inr (.inl ⟨0, 1, 2, .inl ⟨rfl, rfl, rfl⟩, h0, h1, h2, by simp [node2, hr, h0, h1, h2, first, List.findIdx_cons]⟩))
  · exact .inr (.inl ⟨0, 1, 2, .inl ⟨rfl, rfl, rfl⟩, h0, h1, h2, by simp [node2, hr, h0, h1, h2, first, List.findIdx_cons]⟩)
  · exact .inr (.inr (.inl ⟨1, 2, 0, .inr (.inl ⟨rfl, rfl, rfl⟩), h1, h2, h0, by simp [node2, hr, h0, h1, h2, first, List.findIdx_cons]⟩))
  · exact .inr (.inr (.inl ⟨2, 0, 1, .inr (.inr ⟨rfl, rfl, rfl⟩), h2, h0, h1, by simp [node2, hr, h0, h1, h2, first, List.findIdx_cons]⟩))
  · exact .inr (.inr (.inr ⟨three _ h0 h1 h2, by simp [node2, hr, h0, h1, h2]⟩))

theorem none_corners (m : K × K) (l : List Nat) (hl : ∀ v ∈ l, v < 3) (h : bary ≠ none → ∀ a b, a < 3 → b < 3 → fi a b ≠ [] → 2 ≤ (fi a b).length) :
    ∀ e ∈ node2none fi m bary l, ∀ j, j < 3 → Corner 3 ind fi bary (fun k => e.A k j) := by
  induction l generalizing m with
  | nil => simp [node2none]
  | cons v l ih =>
    unfold node2none
    rcases bary with _ | b
    · simp
    · dsimp only
      split
      · rename_i hne
        have hv := hl v List.mem_cons_self
        have h2 := h (by simp) v ((v + 1) % 3) hv (by omega) hne
        have hc1 := store_fst m _ hne
        have hc2 := store_snd m _ h2
        generalize store m (fi v ((v + 1) % 3)) = c at hc1 hc2 ⊢
        intro e he
        simp only [List.mem_singleton] at he
        subst he
        have : v = 0 ∨ v = 1 ∨ v = 2 := by omega
        rcases this with rfl | rfl | rfl
        · exact three _ (corner_edge 0 1 c.1 (by omega) (by omega) (by omega) hc1 (by col)) (corner_edge 0 1 c.2 (by omega) (by omega) (by omega) hc2 (by col))
            (corner_special b rfl (by col))
        · exact three _ (corner_special b rfl (by col)) (corner_edge 1 2 c.1 (by omega) (by omega) (by omega) hc1 (by col))
            (corner_edge 1 2 c.2 (by omega) (by omega) (by omega) hc2 (by col))
        · exact three _ (corner_edge 2 0 c.2 (by omega) (by omega) (by omega) hc2 (by col)) (corner_special b rfl (by col))
            (corner_edge 2 0 c.1 (by omega) (by omega) (by omega) hc1 (by col))
      · exact ih _ fun v hv => hl v (List.mem_cons_of_mem _ hv)

/-- Every vertex of a part is a vertex inside, a point of intersection of an edge, or the special point. -/
theorem node2_corners (m : K × K) (s : Simplex K) (hx : ∀ a b, a < 3 → b < 3 → ind a ≠ ind b → fi a b ≠ [])
    (h : bary ≠ none → ∀ a b, a < 3 → b < 3 → fi a b ≠ [] → 2 ≤ (fi a b).length) :
    ∀ e ∈ node2 ind fi m bary s, ∀ j, j < 3 → Corner 3 ind fi bary (fun k => e.A k j) := by
  rcases node2_cases ind fi m bary s with ⟨_, e⟩ | ⟨i, o1, o2, hc, hi, h1, h2, e⟩ | ⟨o, i1, i2, hc, ho, h1, h2, e⟩ | ⟨hi, e⟩
  · rw [e]; exact none_corners m _ (by simp) h
  · rw [e]
    have hlt : i < 3 ∧ o1 < 3 ∧ o2 < 3 := by rcases hc with ⟨rfl, rfl, rfl⟩ | ⟨rfl, rfl, rfl⟩ | ⟨rfl, rfl, rfl⟩ <;> simp
    exact one_corners m hc hi (hx _ _ hlt.1 hlt.2.1 (by simp [hi, h1])) (hx _ _ hlt.1 hlt.2.2 (by simp [hi, h2]))
  · rw [e]
    have hlt : o < 3 ∧ i1 < 3 ∧ i2 < 3 := by rcases hc with ⟨rfl, rfl, rfl⟩ | ⟨rfl, rfl, rfl⟩ | ⟨rfl, rfl, rfl⟩ <;> simp
    exact two_corners m s hc h1 h2 (hx _ _ hlt.1 hlt.2.1 (by simp [ho, h1])) (hx _ _ hlt.1 hlt.2.2 (by simp [ho, h2]))
  · rw [e]
    intro e' he'
    simp only [List.mem_singleton] at he'
    subst he'
    exact three _ (corner_vertex 0 (by omega) (hi 0 (by omega)) (by col)) (corner_vertex 1 (by omega) (hi 1 (by omega)) (by col))
      (corner_vertex 2 (by omega) (hi 2 (by omega)) (by col))

theorem node1_corners (m : K × K) (hx : ∀ a b, a < 2 → b < 2 → ind a ≠ ind b → fi a b ≠ []) :
    ∀ e ∈ node1 ind fi m, ∀ j, j < 2 → Corner 2 ind fi none (fun k => e.A k j) := by
  have two : ∀ P : Nat → Prop, P 0 → P 1 → ∀ k, k < 2 → P k := by
    intro P h0 h1 k hk
    rcases k with _ | _ | k
    · exact h0
    · exact h1
    · omega
  have hr : List.range 2 = [0, 1] := rfl
  rcases h0 : ind 0 with _ | _ <;> rcases h1 : ind 1 with _ | _
  · have e : node1 ind fi m = if (fi 0 1).length = 2 then [⟨entries [(0, 0, 1 - (store m (fi 0 1)).1), (1, 0, (store m (fi 0 1)).1),
        (1, 1, (store m (fi 0 1)).2), (0, 1, 1 - (store m (fi 0 1)).2)], (store m (fi 0 1)).2 - (store m (fi 0 1)).1⟩] else [] := by
      simp [node1, hr, h0, h1]
    rw [e]
    split
    · rename_i hl
      have hc1 := store_fst m (fi 0 1) (by intro h; rw [h] at hl; simp at hl)
      have hc2 := store_snd m (fi 0 1) (by omega)
      generalize store m (fi 0 1) = c at hc1 hc2 ⊢
      intro e' he'
      simp only [List.mem_singleton] at he'
      subst he'
      exact two _ (corner_edge 0 1 c.1 (by omega) (by omega) (by omega) hc1 (by col)) (corner_edge 0 1 c.2 (by omega) (by omega) (by omega) hc2 (by col))
    · simp
  · have e : node1 ind fi m = [⟨entries [(1, 1, 1), (0, 0, (store m (fi 1 0)).1), (1, 0, 1 - (store m (fi 1 0)).1)], (store m (fi 1 0)).1⟩] := by
      simp [node1, hr, h0, h1, first, List.findIdx_cons]
    rw [e]
    have hc1 := store_fst m (fi 1 0) (hx 1 0 (by omega) (by omega) (by simp [h0, h1]))
    generalize (store m (fi 1 0)).1 = c at hc1 ⊢
    intro e' he'
    simp only [List.mem_singleton] at he'
    subst he'
    exact two _ (corner_edge 1 0 c (by omega) (by omega) (by omega) hc1 (by col)) (corner_vertex 1 (by omega) h1 (by col))
  · have e : node1 ind fi m = [⟨entries [(0, 0, 1), (1, 1, (store m (fi 0 1)).1), (0, 1, 1 - (store m (fi 0 1)).1)], (store m (fi 0 1)).1⟩] := by
      simp [node1, hr, h0, h1, first, List.findIdx_cons]
    rw [e]
    have hc1 := store_fst m (fi 0 1) (hx 0 1 (by omega) (by omega) (by simp [h0, h1]))
    generalize (store m (fi 0 1)).1 = c at hc1 ⊢
    intro e' he'
    simp only [List.mem_singleton] at he'
    subst he'
    exact two _ (corner_vertex 0 (by omega) h0 (by col)) (corner_edge 0 1 c (by omega) (by omega) (by omega) hc1 (by col))
  · have e : node1 ind fi m = [⟨entries [(0, 0, 1), (1, 1, 1)], 1⟩] := by simp [node1, hr, h0, h1]
    rw [e]
    intro e' he'
    simp only [List.mem_singleton] at he'
    subst he'
    exact two _ (corner_vertex 0 (by omega) h0 (by col)) (corner_vertex 1 (by omega) h1 (by col))

/-! ### Volumes -/

theorem det_three (A : Nat → Nat → K) : (Matrix.of fun i j : Fin 3 => A i j).det = det3 A := by
  rw [Matrix.det_fin_three]
  simp only [Matrix.of_apply, Fin.val_zero, Fin.val_one, Fin.val_two, det3]
  ring

theorem det_two (A : Nat → Nat → K) : (Matrix.of fun i j : Fin 2 => A i j).det = A 0 0 * A 1 1 - A 0 1 * A 1 0 := by
  rw [Matrix.det_fin_two]
  simp only [Matrix.of_apply, Fin.val_zero, Fin.val_one]

/-- The volume is the determinant up to the sign. -/
theorem node2_volume (m : K × K) (s : Simplex K) (hb : ∀ b, bary = some b → b 0 + b 1 + b 2 = 1) :
    ∀ e ∈ node2 ind fi m bary s, e.vol = det3 e.A ∨ e.vol = -det3 e.A := by
  rcases node2_cases ind fi m bary s with ⟨_, e⟩ | ⟨i, o1, o2, hc, _, _, _, e⟩ | ⟨o, i1, i2, hc, _, _, _, e⟩ | ⟨_, e⟩
  · rw [e]
    have : ∀ l : List Nat, (∀ v ∈ l, v < 3) → ∀ m : K × K, ∀ e ∈ node2none fi m bary l, e.vol = det3 e.A ∨ e.vol = -det3 e.A := by
      intro l
      induction l with
      | nil => simp [node2none]
      | cons v l ih =>
        intro hl m
        unfold node2none
        rcases bary with _ | b
        · simp
        · dsimp only
          split
          · intro e he
            simp only [List.mem_singleton] at he
            subst he
            have hv := hl v List.mem_cons_self
            have : v = 0 ∨ v = 1 ∨ v = 2 := by omega
            left
            rcases this with rfl | rfl | rfl <;> simp [det3, entries, -mul_eq_mul_left_iff] <;> ring
          · exact ih (fun v hv => hl v (List.mem_cons_of_mem _ hv)) _
    exact this _ (by simp) m
  · rw [e]
    unfold node2one
    dsimp only
    generalize (store m (fi i o1)).1 = c1
    generalize store (store (store m (fi i o1)) (fi i o2)) (fi o1 o2) = d
    generalize (store (store m (fi i o1)) (fi i o2)).1 = c2
    split
    · intro e he
      rcases List.mem_cons.1 he with rfl | he
      · left; rcases hc with ⟨rfl, rfl, rfl⟩ | ⟨rfl, rfl, rfl⟩ | ⟨rfl, rfl, rfl⟩ <;> simp [det3, entries] <;> ring
      · rcases bary with _ | b
        · simp at he
        · simp only [List.mem_singleton] at he
          subst he
          have hb := hb b rfl
          right; rcases hc with ⟨rfl, rfl, rfl⟩ | ⟨rfl, rfl, rfl⟩ | ⟨rfl, rfl, rfl⟩ <;> simp [det3, entries] <;> linear_combination (c1 * c2) * hb
    · intro e he
      simp only [List.mem_cons, List.not_mem_nil, or_false] at he
      left
      rcases he with rfl | rfl | rfl <;> rcases hc with ⟨rfl, rfl, rfl⟩ | ⟨rfl, rfl, rfl⟩ | ⟨rfl, rfl, rfl⟩ <;> simp [det3, entries] <;> ring
    · intro e he
      simp only [List.mem_cons, List.not_mem_nil, or_false] at he
      left
      rcases he with rfl | rfl <;> rcases hc with ⟨rfl, rfl, rfl⟩ | ⟨rfl, rfl, rfl⟩ | ⟨rfl, rfl, rfl⟩ <;> simp [det3, entries] <;> ring
  · rw [e]
    unfold node2two
    dsimp only
    generalize (store m (fi o i1)).1 = c1
    generalize (store (store m (fi o i1)) (fi o i2)).1 = c2
    intro e he
    rcases List.mem_append.1 he with he | he
    · left
      split at he
      · simp only [List.mem_cons, List.not_mem_nil, or_false] at he
        rcases he with rfl | rfl <;> rcases hc with ⟨rfl, rfl, rfl⟩ | ⟨rfl, rfl, rfl⟩ | ⟨rfl, rfl, rfl⟩ <;> simp [det3, entries] <;> ring
      · simp only [List.mem_cons, List.not_mem_nil, or_false] at he
        rcases he with rfl | rfl <;> rcases hc with ⟨rfl, rfl, rfl⟩ | ⟨rfl, rfl, rfl⟩ | ⟨rfl, rfl, rfl⟩ <;> simp [det3, entries] <;> ring
    · rcases bary with _ | b
      · simp at he
      · simp only [List.mem_singleton] at he
        subst he
        exact .inl rfl
  · rw [e]
    intro e he
    simp only [List.mem_singleton] at he
    subst he
    left; simp [det3, entries]

theorem node2_vol_nonneg (m : K × K) (s : Simplex K) (hx : ∀ a b, a < 3 → b < 3 → ind a ≠ ind b → fi a b ≠ [])
    (h01 : ∀ a b, ∀ c ∈ fi a b, 0 ≤ c ∧ c ≤ 1) (hp : ∀ a b, (fi a b).Pairwise (· ≤ ·)) : ∀ e ∈ node2 ind fi m none s, 0 ≤ e.vol := by
  rcases node2_cases ind fi m none s with ⟨_, e⟩ | ⟨i, o1, o2, hc, hi, h1, h2, e⟩ | ⟨o, i1, i2, hc, ho, h1, h2, e⟩ | ⟨_, e⟩
  · rw [e]; simp [node2none]
  · rw [e]
    have hlt : i < 3 ∧ o1 < 3 ∧ o2 < 3 := by rcases hc with ⟨rfl, rfl, rfl⟩ | ⟨rfl, rfl, rfl⟩ | ⟨rfl, rfl, rfl⟩ <;> simp
    have hc1 := h01 _ _ _ (store_fst m _ (hx _ _ hlt.1 hlt.2.1 (by simp [hi, h1])))
    have hc2 := h01 _ _ _ (store_fst (store m (fi i o1)) _ (hx _ _ hlt.1 hlt.2.2 (by simp [hi, h2])))
    have he1 : fi o1 o2 ≠ [] → _ := fun h => h01 _ _ _ (store_fst (store (store m (fi i o1)) (fi i o2)) (fi o1 o2) h)
    have he2 : 2 ≤ (fi o1 o2).length → _ := fun h => h01 _ _ _ (store_snd (store (store m (fi i o1)) (fi i o2)) (fi o1 o2) h)
    have he3 : 2 ≤ (fi o1 o2).length → _ := fun h => store_le (store (store m (fi i o1)) (fi i o2)) (fi o1 o2) h (hp _ _)
    unfold node2one
    dsimp only
    generalize (store m (fi i o1)).1 = c1 at *
    generalize store (store (store m (fi i o1)) (fi i o2)) (fi o1 o2) = d at *
    generalize (store (store m (fi i o1)) (fi i o2)).1 = c2 at *
    split
    · intro e he
      simp only [List.mem_singleton] at he
      subst he
      exact mul_nonneg hc1.1 hc2.1
    · rename_i hl
      have hd1 := he1 (by intro h; rw [h] at hl; simp at hl)
      have hd2 := he2 (by omega)
      have hd3 := he3 (by omega)
      intro e he
      simp only [List.mem_cons, List.not_mem_nil, or_false] at he
      rcases he with rfl | rfl | rfl
      · exact mul_nonneg hc1.1 hd1.1
      · exact sub_nonneg.2 hd3
      · exact mul_nonneg hc2.1 (sub_nonneg.2 hd2.2)
    · rename_i h0 _
      have hd1 := he1 (by intro h; exact h0 (by rw [h]; rfl))
      intro e he
      simp only [List.mem_cons, List.not_mem_nil, or_false] at he
      rcases he with rfl | rfl
      · exact mul_nonneg hc1.1 hd1.1
      · exact mul_nonneg hc2.1 (sub_nonneg.2 hd1.2)
  · rw [e]
    have hlt : o < 3 ∧ i1 < 3 ∧ i2 < 3 := by rcases hc with ⟨rfl, rfl, rfl⟩ | ⟨rfl, rfl, rfl⟩ | ⟨rfl, rfl, rfl⟩ <;> simp
    have hc1 := h01 _ _ _ (store_fst m _ (hx _ _ hlt.1 hlt.2.1 (by simp [ho, h1])))
    have hc2 := h01 _ _ _ (store_fst (store m (fi o i1)) _ (hx _ _ hlt.1 hlt.2.2 (by simp [ho, h2])))
    unfold node2two
    dsimp only
    generalize (store m (fi o i1)).1 = c1 at *
    generalize (store (store m (fi o i1)) (fi o i2)).1 = c2 at *
    intro e he
    simp only [List.append_nil] at he
    split at he
    · simp only [List.mem_cons, List.not_mem_nil, or_false] at he
      rcases he with rfl | rfl
      · exact mul_nonneg hc1.1 (sub_nonneg.2 hc2.2)
      · exact sub_nonneg.2 hc1.2
    · simp only [List.mem_cons, List.not_mem_nil, or_false] at he
      rcases he with rfl | rfl
      · exact mul_nonneg hc2.1 (sub_nonneg.2 hc1.2)
      · exact sub_nonneg.2 hc2.2
  · rw [e]
    intro e he
    simp only [List.mem_singleton] at he
    subst he
    exact zero_le_one

/-! ### Disjointness -/

theorem image3 (A : Nat → Nat → K) (u : Nat → K) (i : Nat) : image 3 A u i = A i 0 * u 0 + A i 1 * u 1 + A i 2 * u 2 := by
  simp [image, Finset.sum_range_succ]

theorem pos_of {a b : K} (ha : 0 ≤ a) (hb : 0 ≤ b) (h : a * b ≠ 0) : 0 < a ∧ 0 < b :=
  ⟨lt_of_le_of_ne ha fun e => h (by rw [← e, zero_mul]), lt_of_le_of_ne hb fun e => h (by rw [← e, mul_zero])⟩

/-- Two parts on different sides of a line through the origin of the last two coordinates. -/
theorem apart_of (A B : Nat → Nat → K) (a b : Nat) (ha : a < 3) (hb : b < 3) (f g : K) (hA : ∀ j, j < 3 → 0 ≤ f * A a j - g * A b j)
    (hB : ∀ j, j < 3 → f * B a j - g * B b j ≤ 0) (j : Nat) (hj : j < 3) (hpos : 0 < f * A a j - g * A b j) : Apart 3 A B := by
  intro u v hu hv _ _
  by_contra hcon
  push Not at hcon
  have e1 := hcon a ha
  have e2 := hcon b hb
  rw [image3, image3] at e1 e2
  have key : (f * A a 0 - g * A b 0) * u 0 + (f * A a 1 - g * A b 1) * u 1 + (f * A a 2 - g * A b 2) * u 2 =
      (f * B a 0 - g * B b 0) * v 0 + (f * B a 1 - g * B b 1) * v 1 + (f * B a 2 - g * B b 2) * v 2 := by
    linear_combination f * e1 - g * e2
  have r : ∀ j, j < 3 → (f * B a j - g * B b j) * v j ≤ 0 := fun j hj => mul_nonpos_of_nonpos_of_nonneg (hB j hj) (hv j hj).le
  have l : ∀ j, j < 3 → 0 ≤ (f * A a j - g * A b j) * u j := fun j hj => mul_nonneg (hA j hj) (hu j hj).le
  have p : 0 < (f * A a j - g * A b j) * u j := mul_pos hpos (hu j hj)
  have r0 := r 0 (by omega); have r1 := r 1 (by omega); have r2 := r 2 (by omega)
  have l0 := l 0 (by omega); have l1 := l 1 (by omega); have l2 := l 2 (by omega)
  have : j = 0 ∨ j = 1 ∨ j = 2 := by omega
  rcases this with rfl | rfl | rfl <;> linarith

theorem node2_apart (m : K × K) (s : Simplex K) (hx : ∀ a b, a < 3 → b < 3 → ind a ≠ ind b → fi a b ≠ [])
    (h01 : ∀ a b, ∀ c ∈ fi a b, 0 ≤ c ∧ c ≤ 1) (hp : ∀ a b, (fi a b).Pairwise (· ≤ ·)) :
    (node2 ind fi m none s).Pairwise fun e e' => e.vol ≠ 0 → e'.vol ≠ 0 → Apart 3 e.A e'.A := by
  rcases node2_cases ind fi m none s with ⟨_, e⟩ | ⟨i, o1, o2, hc, hi, h1, h2, e⟩ | ⟨o, i1, i2, hc, ho, h1, h2, e⟩ | ⟨_, e⟩
  · rw [e]; simp [node2none]
  · rw [e]
    have hlt : i < 3 ∧ o1 < 3 ∧ o2 < 3 := by rcases hc with ⟨rfl, rfl, rfl⟩ | ⟨rfl, rfl, rfl⟩ | ⟨rfl, rfl, rfl⟩ <;> simp
    have hc1 := h01 _ _ _ (store_fst m _ (hx _ _ hlt.1 hlt.2.1 (by simp [hi, h1])))
    have hc2 := h01 _ _ _ (store_fst (store m (fi i o1)) _ (hx _ _ hlt.1 hlt.2.2 (by simp [hi, h2])))
    have he1 : fi o1 o2 ≠ [] → _ := fun h => h01 _ _ _ (store_fst (store (store m (fi i o1)) (fi i o2)) (fi o1 o2) h)
    have he2 : 2 ≤ (fi o1 o2).length → _ := fun h => h01 _ _ _ (store_snd (store (store m (fi i o1)) (fi i o2)) (fi o1 o2) h)
    have he3 : 2 ≤ (fi o1 o2).length → _ := fun h => store_le (store (store m (fi i o1)) (fi i o2)) (fi o1 o2) h (hp _ _)
    unfold node2one
    dsimp only
    generalize (store m (fi i o1)).1 = c1 at *
    generalize store (store (store m (fi i o1)) (fi i o2)) (fi o1 o2) = d at *
    generalize (store (store m (fi i o1)) (fi i o2)).1 = c2 at *
    split
    · simp
    · rename_i hl
      obtain ⟨d10, d11⟩ := he1 (by intro h; rw [h] at hl; simp at hl)
      obtain ⟨d20, d21⟩ := he2 (by omega)
      have hd3 := he3 (by omega)
      have q1 : d.1 * (1 - d.2) - (1 - d.1) * d.2 ≤ 0 := by linarith
      have q2 : 0 ≤ d.2 * (1 - d.1) - (1 - d.2) * d.1 := by linarith
      have k2 : -((1 - d.1) * c2) ≤ 0 := neg_nonpos.2 (mul_nonneg (sub_nonneg.2 d11) hc2.1)
      have k3 : -((1 - d.2) * c2) ≤ 0 := neg_nonpos.2 (mul_nonneg (sub_nonneg.2 d21) hc2.1)
      simp only [List.pairwise_cons, List.mem_cons, List.not_mem_nil, or_false, forall_eq_or_imp, forall_eq, IsEmpty.forall_iff, implies_true,
        List.Pairwise.nil, and_true]
      refine ⟨⟨fun n1 n2 => ?_, fun n1 n3 => ?_⟩, fun n2 n3 => ?_⟩
      · obtain ⟨p1, p2⟩ := pos_of hc1.1 d10 n1
        have k1 : 0 < d.1 * c1 := mul_pos p2 p1
        rcases hc with ⟨rfl, rfl, rfl⟩ | ⟨rfl, rfl, rfl⟩ | ⟨rfl, rfl, rfl⟩
        · exact apart_of _ _ 1 2 (by omega) (by omega) d.1 (1 - d.1) (three _ (by simp [entries]) (by simp [entries, k1.le]) (by simp [entries]; linarith))
            (three _ (by simp [entries]) (by simp [entries]; linarith) (by simp [entries]; linarith)) 1 (by omega) (by simp [entries]; linarith)
        · exact apart_of _ _ 2 0 (by omega) (by omega) d.1 (1 - d.1) (three _ (by simp [entries]; linarith) (by simp [entries]) (by simp [entries, k1.le]))
            (three _ (by simp [entries]; linarith) (by simp [entries]) (by simp [entries]; linarith)) 2 (by omega) (by simp [entries]; linarith)
        · exact apart_of _ _ 0 1 (by omega) (by omega) d.1 (1 - d.1) (three _ (by simp [entries, k1.le]) (by simp [entries]; linarith) (by simp [entries]))
            (three _ (by simp [entries]; linarith) (by simp [entries]; linarith) (by simp [entries])) 0 (by omega) (by simp [entries]; linarith)
      · obtain ⟨p1, p2⟩ := pos_of hc1.1 d10 n1
        have k1 : 0 < d.1 * c1 := mul_pos p2 p1
        rcases hc with ⟨rfl, rfl, rfl⟩ | ⟨rfl, rfl, rfl⟩ | ⟨rfl, rfl, rfl⟩
        · exact apart_of _ _ 1 2 (by omega) (by omega) d.1 (1 - d.1) (three _ (by simp [entries]) (by simp [entries, k1.le]) (by simp [entries]; linarith))
            (three _ (by simp [entries]) (by simp [entries]; linarith) (by simp [entries]; linarith)) 1 (by omega) (by simp [entries]; linarith)
        · exact apart_of _ _ 2 0 (by omega) (by omega) d.1 (1 - d.1) (three _ (by simp [entries]; linarith) (by simp [entries]) (by simp [entries, k1.le]))
            (three _ (by simp [entries]; linarith) (by simp [entries]) (by simp [entries]; linarith)) 2 (by omega) (by simp [entries]; linarith)
        · exact apart_of _ _ 0 1 (by omega) (by omega) d.1 (1 - d.1) (three _ (by simp [entries, k1.le]) (by simp [entries]; linarith) (by simp [entries]))
            (three _ (by simp [entries]; linarith) (by simp [entries]; linarith) (by simp [entries])) 0 (by omega) (by simp [entries]; linarith)
      · have k1 : 0 < d.2 - d.1 := lt_of_le_of_ne (sub_nonneg.2 hd3) (Ne.symm n2)
        rcases hc with ⟨rfl, rfl, rfl⟩ | ⟨rfl, rfl, rfl⟩ | ⟨rfl, rfl, rfl⟩
        · exact apart_of _ _ 1 2 (by omega) (by omega) d.2 (1 - d.2) (three _ (by simp [entries]) (by simp [entries]; linarith) (by simp [entries]; linarith))
            (three _ (by simp [entries]) (by simp [entries]; linarith) (by simp [entries]; linarith)) 1 (by omega) (by simp [entries]; linarith)
        · exact apart_of _ _ 2 0 (by omega) (by omega) d.2 (1 - d.2) (three _ (by simp [entries]; linarith) (by simp [entries]) (by simp [entries]; linarith))
            (three _ (by simp [entries]; linarith) (by simp [entries]) (by simp [entries]; linarith)) 2 (by omega) (by simp [entries]; linarith)
        · exact apart_of _ _ 0 1 (by omega) (by omega) d.2 (1 - d.2) (three _ (by simp [entries]; linarith) (by simp [entries]; linarith) (by simp [entries]))
            (three _ (by simp [entries]; linarith) (by simp [entries]; linarith) (by simp [entries])) 0 (by omega) (by simp [entries]; linarith)
    · rename_i h0 _
      obtain ⟨d10, d11⟩ := he1 (by intro h; exact h0 (by rw [h]; rfl))
      have k2 : -((1 - d.1) * c2) ≤ 0 := neg_nonpos.2 (mul_nonneg (sub_nonneg.2 d11) hc2.1)
      simp only [List.pairwise_cons, List.mem_cons, List.not_mem_nil, or_false, forall_eq, IsEmpty.forall_iff, implies_true,
        List.Pairwise.nil, and_true]
      intro n1 n2
      obtain ⟨p1, p2⟩ := pos_of hc1.1 d10 n1
      have k1 : 0 < d.1 * c1 := mul_pos p2 p1
      rcases hc with ⟨rfl, rfl, rfl⟩ | ⟨rfl, rfl, rfl⟩ | ⟨rfl, rfl, rfl⟩
      · exact apart_of _ _ 1 2 (by omega) (by omega) d.1 (1 - d.1) (three _ (by simp [entries]) (by simp [entries, k1.le]) (by simp [entries]; linarith))
          (three _ (by simp [entries]) (by simp [entries]; linarith) (by simp [entries]; linarith)) 1 (by omega) (by simp [entries]; linarith)
      · exact apart_of _ _ 2 0 (by omega) (by omega) d.1 (1 - d.1) (three _ (by simp [entries]; linarith) (by simp [entries]) (by simp [entries, k1.le]))
          (three _ (by simp [entries]; linarith) (by simp [entries]) (by simp [entries]; linarith)) 2 (by omega) (by simp [entries]; linarith)
      · exact apart_of _ _ 0 1 (by omega) (by omega) d.1 (1 - d.1) (three _ (by simp [entries, k1.le]) (by simp [entries]; linarith) (by simp [entries]))
          (three _ (by simp [entries]; linarith) (by simp [entries]; linarith) (by simp [entries])) 0 (by omega) (by simp [entries]; linarith)
  · rw [e]
    have hlt : o < 3 ∧ i1 < 3 ∧ i2 < 3 := by rcases hc with ⟨rfl, rfl, rfl⟩ | ⟨rfl, rfl, rfl⟩ | ⟨rfl, rfl, rfl⟩ <;> simp
    have hc1 := h01 _ _ _ (store_fst m _ (hx _ _ hlt.1 hlt.2.1 (by simp [ho, h1])))
    have hc2 := h01 _ _ _ (store_fst (store m (fi o i1)) _ (hx _ _ hlt.1 hlt.2.2 (by simp [ho, h2])))
    unfold node2two
    dsimp only
    generalize (store m (fi o i1)).1 = c1 at *
    generalize (store (store m (fi o i1)) (fi o i2)).1 = c2 at *
    simp only [List.append_nil]
    split
    · simp only [List.pairwise_cons, List.mem_cons, List.not_mem_nil, or_false, forall_eq, IsEmpty.forall_iff, implies_true,
        List.Pairwise.nil, and_true]
      intro n1 n2
      obtain ⟨p1, p2⟩ := pos_of hc1.1 (sub_nonneg.2 hc2.2) n1
      have k1 : 0 < c1 * (1 - c2) := mul_pos p1 p2
      have k2 : 0 ≤ 1 - c1 := sub_nonneg.2 hc1.2
      rcases hc with ⟨rfl, rfl, rfl⟩ | ⟨rfl, rfl, rfl⟩ | ⟨rfl, rfl, rfl⟩
      · exact apart_of _ _ 0 1 (by omega) (by omega) c1 (1 - c1) (three _ (by simp [entries]; linarith) (by simp [entries]; linarith) (by simp [entries]))
          (three _ (by simp [entries]; linarith) (by simp [entries]; linarith) (by simp [entries])) 0 (by omega) (by simp [entries]; linarith)
      · exact apart_of _ _ 1 2 (by omega) (by omega) c1 (1 - c1) (three _ (by simp [entries]) (by simp [entries]; linarith) (by simp [entries]; linarith))
          (three _ (by simp [entries]) (by simp [entries]; linarith) (by simp [entries]; linarith)) 1 (by omega) (by simp [entries]; linarith)
      · exact apart_of _ _ 2 0 (by omega) (by omega) c1 (1 - c1) (three _ (by simp [entries]; linarith) (by simp [entries]) (by simp [entries]; linarith))
          (three _ (by simp [entries]; linarith) (by simp [entries]) (by simp [entries]; linarith)) 2 (by omega) (by simp [entries]; linarith)
    · simp only [List.pairwise_cons, List.mem_cons, List.not_mem_nil, or_false, forall_eq, IsEmpty.forall_iff, implies_true,
        List.Pairwise.nil, and_true]
      intro n1 n2
      obtain ⟨p1, p2⟩ := pos_of hc2.1 (sub_nonneg.2 hc1.2) n1
      have k1 : 0 < c2 * (1 - c1) := mul_pos p1 p2
      have k2 : 0 ≤ 1 - c2 := sub_nonneg.2 hc2.2
      rcases hc with ⟨rfl, rfl, rfl⟩ | ⟨rfl, rfl, rfl⟩ | ⟨rfl, rfl, rfl⟩
      · exact apart_of _ _ 0 2 (by omega) (by omega) c2 (1 - c2) (three _ (by simp [entries]; linarith) (by simp [entries]) (by simp [entries]; linarith))
          (three _ (by simp [entries]; linarith) (by simp [entries]) (by simp [entries]; linarith)) 0 (by omega) (by simp [entries]; linarith)
      · exact apart_of _ _ 1 0 (by omega) (by omega) c2 (1 - c2) (three _ (by simp [entries]; linarith) (by simp [entries]; linarith) (by simp [entries]))
          (three _ (by simp [entries]; linarith) (by simp [entries]; linarith) (by simp [entries])) 1 (by omega) (by simp [entries]; linarith)
      · exact apart_of _ _ 2 1 (by omega) (by omega) c2 (1 - c2) (three _ (by simp [entries]) (by simp [entries]; linarith) (by simp [entries]; linarith))
          (three _ (by simp [entries]) (by simp [entries]; linarith) (by simp [entries]; linarith)) 2 (by omega) (by simp [entries]; linarith)
  · rw [e]; simp

end PyNucleus.Interaction
