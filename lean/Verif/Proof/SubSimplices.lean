import Verif.Model.SubSimplices
import Verif.Proof.RelativePosition
import Mathlib.Tactic.FieldSimp
import Mathlib.Tactic.LinearCombination
import Mathlib.Tactic.Positivity

namespace PyNucleus.Interaction

variable {K : Type} [Field K] [LinearOrder K] [IsStrictOrderedRing K]

/-! ### Intersections of a sphere with a segment -/

theorem euclid2_segment (dim : Nat) (x : Point K) (s : Simplex K) (a b : Nat) (c : K) :
    euclid2 dim x (onSegment s a b c) = euclid2 dim (s b) (s a) * c ^ 2 +
      2 * (∑ k ∈ Finset.range dim, (s b k - s a k) * (s a k - x k)) * c + euclid2 dim (s a) x := by
  unfold euclid2 onSegment
  simp only [Finset.mul_sum, Finset.sum_mul, ← Finset.sum_add_distrib]
  exact Finset.sum_congr rfl fun k _ => by ring

/-- The two roots. -/
theorem cross2_eq (sqrt : K → K) (hs : IsSqrt sqrt) (dim : Nat) (h2 : K) (x : Point K) (s : Simplex K) (a b : Nat) (hn : 0 < euclid2 dim (s b) (s a)) :
    (cross2 sqrt dim h2 x s a b = [] ∧ ∀ c, h2 < euclid2 dim x (onSegment s a b c)) ∨
      ∃ r t, r ≤ t ∧ (∀ c, euclid2 dim x (onSegment s a b c) - h2 = euclid2 dim (s b) (s a) * ((c - r) * (c - t))) ∧
        cross2 sqrt dim h2 x s a b = (if 0 ≤ r ∧ r ≤ 1 then [r] else []) ++ (if 0 ≤ t ∧ t ≤ 1 then [t] else []) := by
  unfold cross2
  simp only [foldl_add, zero_add, sum_range_list]
  rw [show (∑ i ∈ Finset.range dim, (s b i - s a i) ^ 2) = euclid2 dim (s b) (s a) from rfl,
    show (∑ i ∈ Finset.range dim, (s a i - x i) ^ 2) = euclid2 dim (s a) x from rfl]
  have hseg := euclid2_segment dim x s a b
  generalize euclid2 dim (s b) (s a) = nn at hn hseg ⊢
  generalize (∑ k ∈ Finset.range dim, (s b k - s a k) * (s a k - x k)) = p at hseg ⊢
  generalize euclid2 dim (s a) x = q at hseg ⊢
  have hA : -(p * (2 * (1 / nn))) * (1 / 2) = -p / nn := by field_simp
  rw [hA]
  set A := -p / nn with hAdef
  have hp : p = -(A * nn) := by rw [hAdef]; field_simp
  set D := A ^ 2 - (q - h2) * (1 / nn) with hD
  have hq : q - h2 = nn * (A ^ 2 - D) := by rw [hD]; field_simp; ring
  have hc : ∀ c, euclid2 dim x (onSegment s a b c) - h2 = nn * ((c - A) ^ 2 - D) := by
    intro c
    rw [hseg c, hp]
    linear_combination hq
  split
  · rename_i h
    left
    refine ⟨rfl, fun c => ?_⟩
    have := hc c
    have h1 : 0 < nn * ((c - A) ^ 2 - D) := mul_pos hn (by have := sq_nonneg (c - A); linarith)
    linarith
  · rename_i h
    right
    obtain ⟨B0, B2⟩ := hs D (not_lt.1 h)
    refine ⟨A - sqrt D, A + sqrt D, by linarith, fun c => ?_, rfl⟩
    rw [hc c]
    linear_combination nn * B2

theorem mem_cross2 (sqrt : K → K) (hs : IsSqrt sqrt) (dim : Nat) (h2 : K) (x : Point K) (s : Simplex K) (a b : Nat) (hn : 0 < euclid2 dim (s b) (s a)) (c : K) :
    c ∈ cross2 sqrt dim h2 x s a b ↔ 0 ≤ c ∧ c ≤ 1 ∧ euclid2 dim x (onSegment s a b c) = h2 := by
  rcases cross2_eq sqrt hs dim h2 x s a b hn with ⟨h, hc⟩ | ⟨r, t, _, hc, h⟩
  · rw [h]
    simp only [List.not_mem_nil, false_iff, not_and]
    intro _ _ e
    exact absurd (hc c) (by rw [e]; exact lt_irrefl _)
  · rw [h]
    have e : euclid2 dim x (onSegment s a b c) = h2 ↔ c = r ∨ c = t := by
      rw [← sub_eq_zero, hc c]
      simp [hn.ne', sub_eq_zero]
    rw [e, List.mem_append]
    constructor
    · rintro (h | h)
      · split at h
        · rename_i hr; simp only [List.mem_singleton] at h; subst h; exact ⟨hr.1, hr.2, .inl rfl⟩
        · simp at h
      · split at h
        · rename_i hr; simp only [List.mem_singleton] at h; subst h; exact ⟨hr.1, hr.2, .inr rfl⟩
        · simp at h
    · rintro ⟨h0, h1, rfl | rfl⟩
      · left; simp [h0, h1]
      · right; simp [h0, h1]

theorem cross2_length (sqrt : K → K) (hs : IsSqrt sqrt) (dim : Nat) (h2 : K) (x : Point K) (s : Simplex K) (a b : Nat) (hn : 0 < euclid2 dim (s b) (s a)) :
    (cross2 sqrt dim h2 x s a b).length ≤ 2 ∧ (cross2 sqrt dim h2 x s a b).Pairwise (· ≤ ·) := by
  rcases cross2_eq sqrt hs dim h2 x s a b hn with ⟨h, _⟩ | ⟨r, t, hrt, _, h⟩
  · simp [h]
  · rw [h]
    split <;> split <;> simp [hrt]

/-- A segment with one end inside and one end outside crosses the sphere. -/
theorem cross2_ne_nil (sqrt : K → K) (hs : IsSqrt sqrt) (dim : Nat) (h2 : K) (x : Point K) (s : Simplex K) (a b : Nat) (hn : 0 < euclid2 dim (s b) (s a))
    (h : (euclid2 dim x (s a) ≤ h2 ∧ h2 < euclid2 dim x (s b)) ∨ (h2 < euclid2 dim x (s a) ∧ euclid2 dim x (s b) ≤ h2)) :
    cross2 sqrt dim h2 x s a b ≠ [] := by
  have ea : onSegment s a b 0 = s a := by funext k; simp [onSegment]
  have eb : onSegment s a b 1 = s b := by funext k; simp [onSegment]
  rcases cross2_eq sqrt hs dim h2 x s a b hn with ⟨_, hc⟩ | ⟨r, t, hrt, hc, e⟩
  · have h0 := hc 0; have h1 := hc 1
    rw [ea] at h0; rw [eb] at h1
    rcases h with h | h
    · exact absurd h.1 (not_le.2 h0)
    · exact absurd h.2 (not_le.2 h1)
  · have h0 := hc 0; have h1 := hc 1
    rw [ea] at h0; rw [eb] at h1
    rw [e]
    rcases h with ⟨ha, hb⟩ | ⟨ha, hb⟩
    · have g0 : (0 - r) * (0 - t) ≤ 0 := by
        by_contra hh; have := mul_pos hn (not_le.1 hh); linarith
      have g1 : 0 < (1 - r) * (1 - t) := by
        by_contra hh; have := mul_nonpos_of_nonneg_of_nonpos hn.le (not_lt.1 hh); linarith
      have t0 : 0 ≤ t := by by_contra hh; nlinarith
      have r0 : r ≤ 0 := by by_contra hh; nlinarith
      have t1 : t ≤ 1 := by by_contra hh; nlinarith
      simp [t0, t1]
    · have g0 : 0 < (0 - r) * (0 - t) := by
        by_contra hh; have := mul_nonpos_of_nonneg_of_nonpos hn.le (not_lt.1 hh); linarith
      have g1 : (1 - r) * (1 - t) ≤ 0 := by
        by_contra hh; have := mul_pos hn (not_le.1 hh); linarith
      have t1 : 1 ≤ t := by by_contra hh; nlinarith
      have r1 : r ≤ 1 := by by_contra hh; nlinarith
      have r0 : 0 ≤ r := by by_contra hh; nlinarith
      simp [r0, r1]

theorem store_fst (m : K × K) (l : List K) (h : l ≠ []) : (store m l).1 ∈ l := by
  rcases l with _ | ⟨a, _ | ⟨b, l⟩⟩
  · exact absurd rfl h
  · simp [store]
  · simp [store]

theorem store_snd (m : K × K) (l : List K) (h : 2 ≤ l.length) : (store m l).2 ∈ l := by
  rcases l with _ | ⟨a, _ | ⟨b, l⟩⟩
  · simp at h
  · simp at h
  · simp [store]

theorem store_le (m : K × K) (l : List K) (h : 2 ≤ l.length) (hp : l.Pairwise (· ≤ ·)) : (store m l).1 ≤ (store m l).2 := by
  rcases l with _ | ⟨a, _ | ⟨b, l⟩⟩
  · simp at h
  · simp at h
  · simp only [store]
    simp only [List.pairwise_cons, List.mem_cons, forall_eq_or_imp] at hp
    exact hp.1.1

/-! ### Columns and determinants -/

/-- What is known about a vertex of a part of a triangle, given by its barycentric coordinates. -/
def Corner (n : Nat) (ind : Nat → Bool) (fi : Nat → Nat → List K) (bary : Option (Nat → K)) (w : Nat → K) : Prop :=
  (∃ i, i < n ∧ ind i = true ∧ ∀ k, k < n → w k = if k = i then 1 else 0) ∨
    (∃ a b c, a < n ∧ b < n ∧ a ≠ b ∧ c ∈ fi a b ∧ ∀ k, k < n → w k = if k = a then 1 - c else if k = b then c else 0) ∨
    ∃ v, bary = some v ∧ ∀ k, k < n → w k = v k

theorem corner_vertex {n : Nat} {ind : Nat → Bool} {fi : Nat → Nat → List K} {bary : Option (Nat → K)} {w : Nat → K} (i : Nat) (hi : i < n)
    (h : ind i = true) (hw : ∀ k, k < n → w k = if k = i then 1 else 0) : Corner n ind fi bary w := .inl ⟨i, hi, h, hw⟩

theorem corner_edge {n : Nat} {ind : Nat → Bool} {fi : Nat → Nat → List K} {bary : Option (Nat → K)} {w : Nat → K} (a b : Nat) (c : K) (ha : a < n)
    (hb : b < n) (hab : a ≠ b) (h : c ∈ fi a b) (hw : ∀ k, k < n → w k = if k = a then 1 - c else if k = b then c else 0) : Corner n ind fi bary w :=
  .inr (.inl ⟨a, b, c, ha, hb, hab, h, hw⟩)

theorem corner_special {n : Nat} {ind : Nat → Bool} {fi : Nat → Nat → List K} {bary : Option (Nat → K)} {w : Nat → K} (v : Nat → K)
    (h : bary = some v) (hw : ∀ k, k < n → w k = v k) : Corner n ind fi bary w := .inr (.inr ⟨v, h, hw⟩)

/-- The three cyclic orders of the vertices. -/
def Cyclic (i j k : Nat) : Prop := (i = 0 ∧ j = 1 ∧ k = 2) ∨ (i = 1 ∧ j = 2 ∧ k = 0) ∨ (i = 2 ∧ j = 0 ∧ k = 1)

theorem three (P : Nat → Prop) (h0 : P 0) (h1 : P 1) (h2 : P 2) : ∀ k, k < 3 → P k := by
  intro k hk
  rcases k with _ | _ | _ | k
  · exact h0
  · exact h1
  · exact h2
  · omega

/-- Evaluates the columns of a matrix of a part. -/
macro "col" : tactic => `(tactic| (intro k hk; rcases k with _ | _ | _ | k <;> first | omega | simp [entries]))

variable {ind : Nat → Bool} {fi : Nat → Nat → List K} {bary : Option (Nat → K)}

theorem one_corners (m : K × K) {i o1 o2 : Nat} (hcyc : Cyclic i o1 o2) (hi : ind i = true) (h1 : fi i o1 ≠ []) (h2 : fi i o2 ≠ []) :
    ∀ e ∈ node2one fi m bary i o1 o2, ∀ j, j < 3 → Corner 3 ind fi bary (fun k => e.A k j) := by
  have hc1 : (store m (fi i o1)).1 ∈ fi i o1 := store_fst _ _ h1
  have hc2 : (store (store m (fi i o1)) (fi i o2)).1 ∈ fi i o2 := store_fst _ _ h2
  unfold node2one
  dsimp only
  generalize (store m (fi i o1)).1 = c1 at hc1 ⊢
  have he1 : fi o1 o2 ≠ [] → (store (store (store m (fi i o1)) (fi i o2)) (fi o1 o2)).1 ∈ fi o1 o2 := store_fst _ _
  have he2 : 2 ≤ (fi o1 o2).length → (store (store (store m (fi i o1)) (fi i o2)) (fi o1 o2)).2 ∈ fi o1 o2 := store_snd _ _
  generalize store (store (store m (fi i o1)) (fi i o2)) (fi o1 o2) = e at he1 he2 ⊢
  generalize (store (store m (fi i o1)) (fi i o2)).1 = c2 at hc2 ⊢
  have hlen : ∀ n, (fi o1 o2).length = n + 1 → fi o1 o2 ≠ [] := by
    intro n h h'; rw [h'] at h; simp at h
  split
  · rename_i hl
    intro e' he'
    rcases List.mem_cons.1 he' with rfl | he'
    · rcases hcyc with ⟨rfl, rfl, rfl⟩ | ⟨rfl, rfl, rfl⟩ | ⟨rfl, rfl, rfl⟩
      · exact three _ (corner_vertex 0 (by omega) hi (by col)) (corner_edge 0 1 c1 (by omega) (by omega) (by omega) hc1 (by col))
          (corner_edge 0 2 c2 (by omega) (by omega) (by omega) hc2 (by col))
      · exact three _ (corner_edge 1 0 c2 (by omega) (by omega) (by omega) hc2 (by col)) (corner_vertex 1 (by omega) hi (by col))
          (corner_edge 1 2 c1 (by omega) (by omega) (by omega) hc1 (by col))
      · exact three _ (corner_edge 2 0 c1 (by omega) (by omega) (by omega) hc1 (by col))
          (corner_edge 2 1 c2 (by omega) (by omega) (by omega) hc2 (by col)) (corner_vertex 2 (by omega) hi (by col))
    · rcases bary with _ | v
      · simp at he'
      · simp only [List.mem_singleton] at he'
        subst he'
        rcases hcyc with ⟨rfl, rfl, rfl⟩ | ⟨rfl, rfl, rfl⟩ | ⟨rfl, rfl, rfl⟩
        · exact three _ (corner_special v rfl (by col)) (corner_edge 0 1 c1 (by omega) (by omega) (by omega) hc1 (by col))
            (corner_edge 0 2 c2 (by omega) (by omega) (by omega) hc2 (by col))
        · exact three _ (corner_edge 1 0 c2 (by omega) (by omega) (by omega) hc2 (by col)) (corner_special v rfl (by col))
            (corner_edge 1 2 c1 (by omega) (by omega) (by omega) hc1 (by col))
        · exact three _ (corner_edge 2 0 c1 (by omega) (by omega) (by omega) hc1 (by col))
            (corner_edge 2 1 c2 (by omega) (by omega) (by omega) hc2 (by col)) (corner_special v rfl (by col))
  · rename_i hl
    have hd1 := he1 (hlen 1 hl)
    have hd2 := he2 (by omega)
    intro e' he'
    simp only [List.mem_cons, List.not_mem_nil, or_false] at he'
    rcases hcyc with ⟨rfl, rfl, rfl⟩ | ⟨rfl, rfl, rfl⟩ | ⟨rfl, rfl, rfl⟩
    · rcases he' with rfl | rfl | rfl
      · exact three _ (corner_vertex 0 (by omega) hi (by col)) (corner_edge 0 1 c1 (by omega) (by omega) (by omega) hc1 (by col))
          (corner_edge 1 2 e.1 (by omega) (by omega) (by omega) hd1 (by col))
      · exact three _ (corner_vertex 0 (by omega) hi (by col)) (corner_edge 1 2 e.1 (by omega) (by omega) (by omega) hd1 (by col))
          (corner_edge 1 2 e.2 (by omega) (by omega) (by omega) hd2 (by col))
      · exact three _ (corner_vertex 0 (by omega) hi (by col)) (corner_edge 1 2 e.2 (by omega) (by omega) (by omega) hd2 (by col))
          (corner_edge 0 2 c2 (by omega) (by omega) (by omega) hc2 (by col))
    · rcases he' with rfl | rfl | rfl
      · exact three _ (corner_edge 2 0 e.1 (by omega) (by omega) (by omega) hd1 (by col)) (corner_vertex 1 (by omega) hi (by col))
          (corner_edge 1 2 c1 (by omega) (by omega) (by omega) hc1 (by col))
      · exact three _ (corner_edge 2 0 e.2 (by omega) (by omega) (by omega) hd2 (by col)) (corner_vertex 1 (by omega) hi (by col))
          (corner_edge 2 0 e.1 (by omega) (by omega) (by omega) hd1 (by col))
      · exact three _ (corner_edge 1 0 c2 (by omega) (by omega) (by omega) hc2 (by col)) (corner_vertex 1 (by omega) hi (by col))
          (corner_edge 2 0 e.2 (by omega) (by omega) (by omega) hd2 (by col))
    · rcases he' with rfl | rfl | rfl
      · exact three _ (corner_edge 2 0 c1 (by omega) (by omega) (by omega) hc1 (by col)) (corner_edge 0 1 e.1 (by omega) (by omega) (by omega) hd1 (by col))
          (corner_vertex 2 (by omega) hi (by col))
      · exact three _ (corner_edge 0 1 e.1 (by omega) (by omega) (by omega) hd1 (by col)) (corner_edge 0 1 e.2 (by omega) (by omega) (by omega) hd2 (by col))
          (corner_vertex 2 (by omega) hi (by col))
      · exact three _ (corner_edge 0 1 e.2 (by omega) (by omega) (by omega) hd2 (by col)) (corner_edge 2 1 c2 (by omega) (by omega) (by omega) hc2 (by col))
          (corner_vertex 2 (by omega) hi (by col))
  · rename_i n h0 _
    have hd1 := he1 (by intro h; exact h0 (by rw [h]; rfl))
    intro e' he'
    simp only [List.mem_cons, List.not_mem_nil, or_false] at he'
    rcases hcyc with ⟨rfl, rfl, rfl⟩ | ⟨rfl, rfl, rfl⟩ | ⟨rfl, rfl, rfl⟩
    · rcases he' with rfl | rfl
      · exact three _ (corner_vertex 0 (by omega) hi (by col)) (corner_edge 0 1 c1 (by omega) (by omega) (by omega) hc1 (by col))
          (corner_edge 1 2 e.1 (by omega) (by omega) (by omega) hd1 (by col))
      · exact three _ (corner_vertex 0 (by omega) hi (by col)) (corner_edge 1 2 e.1 (by omega) (by omega) (by omega) hd1 (by col))
          (corner_edge 0 2 c2 (by omega) (by omega) (by omega) hc2 (by col))
    · rcases he' with rfl | rfl
      · exact three _ (corner_edge 2 0 e.1 (by omega) (by omega) (by omega) hd1 (by col)) (corner_vertex 1 (by omega) hi (by col))
          (corner_edge 1 2 c1 (by omega) (by omega) (by omega) hc1 (by col))
      · exact three _ (corner_edge 1 0 c2 (by omega) (by omega) (by omega) hc2 (by col)) (corner_vertex 1 (by omega) hi (by col))
          (corner_edge 2 0 e.1 (by omega) (by omega) (by omega) hd1 (by col))
    · rcases he' with rfl | rfl
      · exact three _ (corner_edge 2 0 c1 (by omega) (by omega) (by omega) hc1 (by col)) (corner_edge 0 1 e.1 (by omega) (by omega) (by omega) hd1 (by col))
          (corner_vertex 2 (by omega) hi (by col))
      · exact three _ (corner_edge 0 1 e.1 (by omega) (by omega) (by omega) hd1 (by col)) (corner_edge 2 1 c2 (by omega) (by omega) (by omega) hc2 (by col))
          (corner_vertex 2 (by omega) hi (by col))

theorem two_corners (m : K × K) (s : Simplex K) {o i1 i2 : Nat} (hcyc : Cyclic o i1 i2) (hi1 : ind i1 = true) (hi2 : ind i2 = true) (h1 : fi o i1 ≠ [])
    (h2 : fi o i2 ≠ []) : ∀ e ∈ node2two fi m bary s o i1 i2, ∀ j, j < 3 → Corner 3 ind fi bary (fun k => e.A k j) := by
  have hc1 : (store m (fi o i1)).1 ∈ fi o i1 := store_fst _ _ h1
  have hc2 : (store (store m (fi o i1)) (fi o i2)).1 ∈ fi o i2 := store_fst _ _ h2
  unfold node2two
  dsimp only
  generalize (store m (fi o i1)).1 = c1 at hc1 ⊢
  generalize (store (store m (fi o i1)) (fi o i2)).1 = c2 at hc2 ⊢
  intro e he
  rcases List.mem_append.1 he with he | he
  · split at he
    · simp only [List.mem_cons, List.not_mem_nil, or_false] at he
      rcases hcyc with ⟨rfl, rfl, rfl⟩ | ⟨rfl, rfl, rfl⟩ | ⟨rfl, rfl, rfl⟩
      · rcases he with rfl | rfl
        · exact three _ (corner_edge 0 2 c2 (by omega) (by omega) (by omega) hc2 (by col)) (corner_edge 0 1 c1 (by omega) (by omega) (by omega) hc1 (by col))
            (corner_vertex 2 (by omega) hi2 (by col))
        · exact three _ (corner_edge 0 1 c1 (by omega) (by omega) (by omega) hc1 (by col)) (corner_vertex 1 (by omega) hi1 (by col))
            (corner_vertex 2 (by omega) hi2 (by col))
      · rcases he with rfl | rfl
        · exact three _ (corner_vertex 0 (by omega) hi2 (by col)) (corner_edge 1 0 c2 (by omega) (by omega) (by omega) hc2 (by col))
            (corner_edge 1 2 c1 (by omega) (by omega) (by omega) hc1 (by col))
        · exact three _ (corner_vertex 0 (by omega) hi2 (by col)) (corner_edge 1 2 c1 (by omega) (by omega) (by omega) hc1 (by col))
            (corner_vertex 2 (by omega) hi1 (by col))
      · rcases he with rfl | rfl
        · exact three _ (corner_edge 2 0 c1 (by omega) (by omega) (by omega) hc1 (by col)) (corner_vertex 1 (by omega) hi2 (by col))
            (corner_edge 2 1 c2 (by omega) (by omega) (by omega) hc2 (by col))
        · exact three _ (corner_vertex 0 (by omega) hi1 (by col)) (corner_vertex 1 (by omega) hi2 (by col))
            (corner_edge 2 0 c1 (by omega) (by omega) (by omega) hc1 (by col))
    · simp only [List.mem_cons, List.not_mem_nil, or_false] at he
      rcases hcyc with ⟨rfl, rfl, rfl⟩ | ⟨rfl, rfl, rfl⟩ | ⟨rfl, rfl, rfl⟩
      · rcases he with rfl | rfl
        · exact three _ (corner_edge 0 1 c1 (by omega) (by omega) (by omega) hc1 (by col)) (corner_vertex 1 (by omega) hi1 (by col))
            (corner_edge 0 2 c2 (by omega) (by omega) (by omega) hc2 (by col))
        · exact three _ (corner_edge 0 2 c2 (by omega) (by omega) (by omega) hc2 (by col)) (corner_vertex 1 (by omega) hi1 (by col))
            (corner_vertex 2 (by omega) hi2 (by col))
      · rcases he with rfl | rfl
        · exact three _ (corner_edge 1 0 c2 (by omega) (by omega) (by omega) hc2 (by col)) (corner_edge 1 2 c1 (by omega) (by omega) (by omega) hc1 (by col))
            (corner_vertex 2 (by omega) hi1 (by col))
        · exact three _ (corner_vertex 0 (by omega) hi2 (by col)) (corner_edge 1 0 c2 (by omega) (by omega) (by omega) hc2 (by col))
            (corner_vertex 2 (by omega) hi1 (by col))
      · rcases he with rfl | rfl
        · exact three _ (corner_vertex 0 (by omega) hi1 (by col)) (corner_edge 2 1 c2 (by omega) (by omega) (by omega) hc2 (by col))
            (corner_edge 2 0 c1 (by omega) (by omega) (by omega) hc1 (by col))
        · exact three _ (corner_vertex 0 (by omega) hi1 (by col)) (corner_vertex 1 (by omega) hi2 (by col))
            (corner_edge 2 1 c2 (by omega) (by omega) (by omega) hc2 (by col))
  · rcases bary with _ | v
    · simp at he
    · simp only [List.mem_singleton] at he
      subst he
      rcases hcyc with ⟨rfl, rfl, rfl⟩ | ⟨rfl, rfl, rfl⟩ | ⟨rfl, rfl, rfl⟩
      · exact three _ (corner_special v rfl (by col)) (corner_edge 0 1 c1 (by omega) (by omega) (by omega) hc1 (by col))
          (corner_edge 0 2 c2 (by omega) (by omega) (by omega) hc2 (by col))
      · exact three _ (corner_edge 1 0 c2 (by omega) (by omega) (by omega) hc2 (by col)) (corner_special v rfl (by col))
          (corner_edge 1 2 c1 (by omega) (by omega) (by omega) hc1 (by col))
      · exact three _ (corner_edge 2 0 c1 (by omega) (by omega) (by omega) hc1 (by col)) (corner_edge 2 1 c2 (by omega) (by omega) (by omega) hc2 (by col))
          (corner_special v rfl (by col))

end PyNucleus.Interaction
