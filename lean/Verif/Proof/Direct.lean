import Verif.Model.Direct
import Verif.Proof.Galerkin
import Mathlib.Tactic.FieldSimp

/-! # Lemmas for triangular substitution -/

namespace PyNucleus.Direct

open PyNucleus.Loops PyNucleus.Spec PyNucleus.CSR Finset

variable {K : Type}

/-- Sum of the values at index `i`. -/
def at' [AddCommMonoid K] (l : List (Nat × K)) (i : Nat) : K :=
  ((l.filter fun e => e.1 = i).map Prod.snd).sum

theorem at'_nil [AddCommMonoid K] (i : Nat) : at' ([] : List (Nat × K)) i = 0 := rfl

theorem at'_cons [AddCommMonoid K] (e : Nat × K) (l : List (Nat × K)) (i : Nat) :
    at' (e :: l) i = (if e.1 = i then e.2 else 0) + at' l i := by
  unfold at'
  by_cases h : e.1 = i
  · rw [List.filter_cons_of_pos (by simpa using h), List.map_cons, List.sum_cons, if_pos h]
  · rw [List.filter_cons_of_neg (by simpa using h), if_neg h, zero_add]

theorem at'_append [AddCommMonoid K] (l l' : List (Nat × K)) (i : Nat) :
    at' (l ++ l') i = at' l i + at' l' i := by
  unfold at'; rw [List.filter_append, List.map_append, List.sum_append]

theorem at'_zero [AddCommMonoid K] (l : List (Nat × K)) (i : Nat) (h : ∀ e ∈ l, e.1 ≠ i) :
    at' l i = 0 := by
  induction l with
  | nil => rfl
  | cons a t ih =>
    rw [at'_cons, if_neg (h a (by simp)), zero_add, ih fun e he => h e (by simp [he])]

/-- One column step. -/
def colStep [Field K] (f : Nat → K → K) (cols : Nat → List (Nat × K)) (b y : List K) (j : Nat) : List K :=
  (cols j).foldl (fun y e => y.modify e.1 (· + e.2 * y.getD j 0)) (y.set j (f j (b.getD j 0 - y.getD j 0)))

theorem scatter_list [Field K] (j : Nat) (l : List (Nat × K)) : ∀ y : List K, (∀ e ∈ l, e.1 ≠ j ∧ e.1 < y.length) →
    (l.foldl (fun y e => y.modify e.1 (· + e.2 * y.getD j 0)) y).length = y.length ∧
    ∀ i, (l.foldl (fun y e => y.modify e.1 (· + e.2 * y.getD j 0)) y).getD i 0 =
      y.getD i 0 + at' l i * y.getD j 0 := by
  induction l with
  | nil => intro y _; exact ⟨rfl, fun i => by rw [at'_nil, zero_mul, add_zero]; rfl⟩
  | cons e t ih =>
    intro y h
    have he := h e (by simp)
    rw [List.foldl_cons]
    obtain ⟨h1, h2⟩ := ih (y.modify e.1 (· + e.2 * y.getD j 0)) (fun x hx => by
      rw [List.length_modify]; exact h x (by simp [hx]))
    refine ⟨by rw [h1, List.length_modify], fun i => ?_⟩
    rw [h2 i, getD_modify, getD_modify, if_neg (show ¬ (e.1 = j ∧ j < y.length) from fun x => he.1 x.1), at'_cons]
    by_cases hi : e.1 = i
    · rw [if_pos ⟨hi, hi ▸ he.2⟩, if_pos hi]; ring
    · rw [if_neg (fun x => hi x.1), if_neg hi]; ring

/-- Every index stored in a column comes later in the order. -/
def Later (cols : Nat → List (Nat × K)) : List Nat → Prop
  | [] => True
  | j :: t => (∀ e ∈ cols j, e.1 ∈ t) ∧ Later cols t

theorem col_solve [Field K] (f : Nat → K → K) (cols : Nat → List (Nat × K)) (b : List K) :
    ∀ (l : List Nat) (y0 : List K), l.Nodup → (∀ j ∈ l, j < y0.length) → Later cols l →
    (l.foldl (colStep f cols b) y0).length = y0.length ∧
    ∀ i, (i ∈ l → (l.foldl (colStep f cols b) y0).getD i 0 = f i (b.getD i 0 - y0.getD i 0 -
        (l.map fun j => at' (cols j) i * (l.foldl (colStep f cols b) y0).getD j 0).sum)) ∧
      (i ∉ l → (l.foldl (colStep f cols b) y0).getD i 0 = y0.getD i 0 +
        (l.map fun j => at' (cols j) i * (l.foldl (colStep f cols b) y0).getD j 0).sum) := by
  intro l
  induction l with
  | nil => intro y0 _ _ _; exact ⟨rfl, fun i => ⟨fun h => by simp at h, fun _ => by simp⟩⟩
  | cons j t ih =>
    intro y0 hnd hlt hl
    rw [List.nodup_cons] at hnd
    obtain ⟨hl1, hl2⟩ := hl
    have hj := hlt j (by simp)
    have hcond : ∀ e ∈ cols j, e.1 ≠ j ∧ e.1 < (y0.set j (f j (b.getD j 0 - y0.getD j 0))).length := by
      intro e he
      have := hl1 e he
      refine ⟨fun h => hnd.1 (h ▸ this), ?_⟩
      rw [List.length_set]; exact hlt _ (by simp [this])
    obtain ⟨s1, s2⟩ := scatter_list j (cols j) _ hcond
    rw [List.foldl_cons]
    have hstep : colStep f cols b y0 j = (cols j).foldl (fun y e => y.modify e.1 (· + e.2 * y.getD j 0))
      (y0.set j (f j (b.getD j 0 - y0.getD j 0))) := rfl
    rw [← hstep] at s1 s2
    rw [List.length_set] at s1
    generalize colStep f cols b y0 j = y1 at *
    obtain ⟨g1, g2⟩ := ih y1 hnd.2 (fun k hk => by rw [s1]; exact hlt k (by simp [hk])) hl2
    generalize t.foldl (colStep f cols b) y1 = y at *
    have hy1j : y1.getD j 0 = f j (b.getD j 0 - y0.getD j 0) := by
      rw [s2 j, at'_zero _ _ fun e he => (hcond e he).1, zero_mul, add_zero, getD_set, if_pos ⟨rfl, hj⟩]
    have hsumj : (t.map fun k => at' (cols k) j * y.getD k 0).sum = 0 := by
      apply List.sum_eq_zero
      intro x hx
      obtain ⟨k, hk, rfl⟩ := List.mem_map.1 hx
      rw [at'_zero, zero_mul]
      have hsuf : ∀ (t : List Nat), Later cols t → ∀ k ∈ t, ∀ e ∈ cols k, e.1 ∈ t := by
        intro t
        induction t with
        | nil => intro _ k hk; simp at hk
        | cons a t ih =>
          intro h k hk e he
          rcases List.mem_cons.1 hk with rfl | hk
          · exact List.mem_cons_of_mem _ (h.1 e he)
          · exact List.mem_cons_of_mem _ (ih h.2 k hk e he)
      intro e he h
      exact hnd.1 (h ▸ hsuf t hl2 k hk e he)
    have hyj : y.getD j 0 = y1.getD j 0 := by
      rw [(g2 j).2 hnd.1, hsumj, add_zero]
    refine ⟨g1.trans s1, fun i => ⟨fun hi => ?_, fun hi => ?_⟩⟩
    · rw [List.map_cons, List.sum_cons]
      by_cases hij : i = j
      · subst hij
        rw [hyj, hsumj, at'_zero _ _ fun e he => (hcond e he).1, zero_mul, add_zero, sub_zero, hy1j]
      · have hit : i ∈ t := (List.mem_cons.1 hi).resolve_left hij
        rw [(g2 i).1 hit, s2 i, getD_set, if_neg (fun h => hij h.1.symm), getD_set,
          if_pos ⟨rfl, hj⟩, hyj, hy1j]
        congr 1; ring
    · rw [List.mem_cons, not_or] at hi
      rw [List.map_cons, List.sum_cons, (g2 i).2 hi.2, s2 i, getD_set, if_neg (fun h => hi.1 h.1.symm), getD_set,
        if_pos ⟨rfl, hj⟩, hyj, hy1j, add_assoc]

theorem sum_range_map [AddCommMonoid K] (n : Nat) (g : Nat → K) :
    ((List.range n).map g).sum = ∑ j ∈ range n, g j := by
  induction n with
  | zero => rfl
  | succ n ih => rw [List.range_succ, List.map_append, List.sum_append, ih, sum_range_succ]; simp

theorem later_range (n : Nat) (cols : Nat → List (Nat × K))
    (h : ∀ j, j < n → ∀ e ∈ cols j, j < e.1 ∧ e.1 < n) : Later cols (List.range n) := by
  have : ∀ k m, m + k = n → Later cols (List.range' m k) := by
    intro k
    induction k with
    | zero => intro m _; exact trivial
    | succ k ih =>
      intro m hm
      rw [List.range'_succ]
      refine ⟨fun e he => ?_, ih (m + 1) (by omega)⟩
      have := h m (by omega) e he
      rw [List.mem_range'_1]; omega
  rw [List.range_eq_range']
  exact this n 0 (by omega)

theorem later_range_rev (n : Nat) (cols : Nat → List (Nat × K))
    (h : ∀ j, j < n → ∀ e ∈ cols j, e.1 < j) : Later cols (List.range n).reverse := by
  induction n with
  | zero => exact trivial
  | succ n ih =>
    rw [List.range_succ, List.reverse_append]
    refine ⟨fun e he => ?_, ih fun j hj => h j (by omega)⟩
    have := h n (by omega) e he
    simp; exact this

/-- Column oriented forward substitution. -/
theorem forward_solve [Field K] (n : Nat) (f : Nat → K → K) (cols : Nat → List (Nat × K)) (b y0 : List K)
    (hy : y0.length = n) (hz : ∀ i, y0.getD i 0 = 0)
    (h : ∀ j, j < n → ∀ e ∈ cols j, j < e.1 ∧ e.1 < n) :
    let y := forRange 0 n y0 (colStep f cols b)
    y.length = n ∧ ∀ i, i < n → y.getD i 0 = f i (b.getD i 0 - ∑ j ∈ range n, at' (cols j) i * y.getD j 0) := by
  intro y
  have hy' : y = (List.range n).foldl (colStep f cols b) y0 := forRange_zero _ _ _
  obtain ⟨h1, h2⟩ := col_solve f cols b (List.range n) y0 List.nodup_range
    (fun j hj => by rw [hy]; simpa using hj) (later_range n cols h)
  rw [← hy'] at h1 h2
  refine ⟨h1.trans hy, fun i hi => ?_⟩
  rw [(h2 i).1 (by simpa using hi), hz, sub_zero, sum_range_map]

/-- Column oriented backward substitution. -/
theorem backward_solve [Field K] (n : Nat) (f : Nat → K → K) (cols : Nat → List (Nat × K)) (b y0 : List K)
    (hy : y0.length = n) (hz : ∀ i, y0.getD i 0 = 0)
    (h : ∀ j, j < n → ∀ e ∈ cols j, e.1 < j) :
    let y := forDown n y0 (colStep f cols b)
    y.length = n ∧ ∀ i, i < n → y.getD i 0 = f i (b.getD i 0 - ∑ j ∈ range n, at' (cols j) i * y.getD j 0) := by
  intro y
  have hy' : y = (List.range n).reverse.foldl (colStep f cols b) y0 := rfl
  obtain ⟨h1, h2⟩ := col_solve f cols b (List.range n).reverse y0 (List.nodup_reverse.2 List.nodup_range)
    (fun j hj => by rw [hy]; simpa using hj) (later_range_rev n cols h)
  rw [← hy'] at h1 h2
  refine ⟨h1.trans hy, fun i hi => ?_⟩
  rw [(h2 i).1 (by simpa using hi), hz, sub_zero, List.map_reverse, List.sum_reverse, sum_range_map]

/-- Row oriented substitution: entry `i` is `g i y` where `g i` reads only entries that are not
written any more. -/
theorem row_solve [Zero K] (g : Nat → List K → K) : ∀ (l : List Nat) (y0 : List K), l.Nodup →
    (∀ i ∈ l, i < y0.length) →
    (∀ pre i post, l = pre ++ i :: post → ∀ y y' : List K,
      (∀ k, k ∉ post → k ≠ i → y.getD k 0 = y'.getD k 0) → y.getD i 0 = y0.getD i 0 → g i y = g i y') →
    (l.foldl (fun y i => y.set i (g i y)) y0).length = y0.length ∧
    (∀ i, i ∉ l → (l.foldl (fun y i => y.set i (g i y)) y0).getD i 0 = y0.getD i 0) ∧
    ∀ i ∈ l, (l.foldl (fun y i => y.set i (g i y)) y0).getD i 0 =
      g i (l.foldl (fun y i => y.set i (g i y)) y0) := by
  intro l
  induction l with
  | nil => intro y0 _ _ _; exact ⟨rfl, fun _ _ => rfl, fun i hi => by simp at hi⟩
  | cons j t ih =>
    intro y0 hnd hlt hg
    rw [List.nodup_cons] at hnd
    have hj := hlt j (by simp)
    rw [List.foldl_cons]
    obtain ⟨h1, h2, h3⟩ := ih (y0.set j (g j y0)) hnd.2 (fun i hi => by rw [List.length_set]; exact hlt i (by simp [hi]))
      (fun pre i post hl y y' hyy hyi => by
        have hij : i ≠ j := fun h => hnd.1 (by rw [hl, h]; simp)
        rw [getD_set, if_neg (fun h => hij h.1.symm)] at hyi
        exact hg (j :: pre) i post (by rw [hl]; rfl) y y' hyy hyi)
    rw [List.length_set] at h1
    generalize t.foldl (fun y i => y.set i (g i y)) (y0.set j (g j y0)) = y at *
    have hyj : y.getD j 0 = g j y0 := by rw [h2 j hnd.1, getD_set, if_pos ⟨rfl, hj⟩]
    refine ⟨h1, fun i hi => ?_, fun i hi => ?_⟩
    · rw [List.mem_cons, not_or] at hi
      rw [h2 i hi.2, getD_set, if_neg (fun h => hi.1 h.1.symm)]
    · rcases List.mem_cons.1 hi with rfl | hi
      · rw [hyj]
        exact hg [] i t rfl y0 y (fun k hk hki => by
          rw [h2 k hk, getD_set, if_neg (fun h => hki h.1.symm)]) rfl
      · exact h3 i hi

end PyNucleus.Direct
