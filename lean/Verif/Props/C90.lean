import Verif.Proof.Segments
import Mathlib.Tactic.NormNum
import Mathlib.Tactic.FieldSimp

/-!
# C90: construction of polygons and joining of meshes

Full statement: sums of segments draw the same facets as their summands, points that coincide are merged; translated and rotated segments draw translated and
rotated facets, and their mesh transformations are those of the segment in the moved coordinates; polygons and rectangles have the wanted sides; joined meshes
have the cells of both meshes.
-/

namespace PyNucleus.Props.C90

open PyNucleus.Segments

/-- The facets as pairs of points. -/
noncomputable def drawn (s : Segment) : List (Point × Point) := s.facets.map fun f => (s.points.getD f.1 (0, 0), s.points.getD f.2 (0, 0))

def Valid (s : Segment) : Prop := ∀ f ∈ s.facets, f.1 < s.points.length ∧ f.2 < s.points.length

def Near (p q : Point) : Prop := len (p - q) ≤ 1 / 1000000

/-- `kd.query_pairs(1e-6)`: all pairs of near points. -/
def Tree (pairs : List Point → List (Nat × Nat)) : Prop := ∀ pts i j, (i, j) ∈ pairs pts ↔ i < j ∧ j < pts.length ∧ Near (pts.getD i (0, 0)) (pts.getD j (0, 0))

theorem near_symm {p q : Point} (h : Near p q) : Near q p := by unfold Near at *; rw [len_neg]; exact h
theorem near_refl (p : Point) : Near p p := by unfold Near; rw [sub_self, (len_zero 0).2 rfl]; norm_num

section
variable {pairs : List Point → List (Nat × Nat)} (ht : Tree pairs)
include ht

theorem tree_assign (pts : List Point) : (∀ i j, assign (pairs pts) i = some j → j < i ∧ i < pts.length ∧ Near (pts.getD i (0, 0)) (pts.getD j (0, 0))) ∧
    ∀ i, assign (pairs pts) i = none ↔ ¬ (∃ j, j < i ∧ i < pts.length ∧ Near (pts.getD j (0, 0)) (pts.getD i (0, 0))) := by
  constructor
  · intro i j h
    obtain ⟨⟨x, y⟩, hp, h1, h2⟩ := (assign_spec (pairs pts) i).2 j h
    obtain ⟨h3, h4, h5⟩ := (ht pts x y).1 hp
    dsimp only at h1 h2
    rw [max_eq_right h3.le] at h1
    rw [min_eq_left h3.le] at h2
    subst h1 h2
    exact ⟨h3, h4, near_symm h5⟩
  · intro i
    rw [(assign_spec (pairs pts) i).1]
    constructor
    · rintro h ⟨j, h1, h2, h3⟩
      exact h (j, i) ((ht pts j i).2 ⟨h1, h2, h3⟩) (max_eq_right h1.le)
    · rintro h ⟨x, y⟩ hp e
      obtain ⟨h3, h4, h5⟩ := (ht pts x y).1 hp
      dsimp only at e
      rw [max_eq_right h3.le] at e
      subst e
      exact h ⟨x, h3, h4, h5⟩

/-- The points of a sum are points of the summands, no two of them are near, and each facet ends at a point that is reached over near points from the former one. -/
theorem sum_points (s t : Segment) : (join pairs s t).points.Pairwise (fun p q => ¬ Near p q) ∧ (∀ p ∈ (join pairs s t).points, p ∈ s.points ++ t.points) ∧
    ∀ i, i < (s.points ++ t.points).length → ∃ j, j < (join pairs s t).points.length ∧
      (number (assign (pairs (s.points ++ t.points))) (s.points ++ t.points).length).1.getD i 0 = j ∧
      Relation.ReflTransGen (fun p q => Near p q ∧ p ∈ s.points ++ t.points ∧ q ∈ s.points ++ t.points) ((s.points ++ t.points).getD i (0, 0)) ((join pairs s t).points.getD j (0, 0)) := by
  have ha := tree_assign ht (s.points ++ t.points)
  unfold join
  dsimp only
  generalize s.points ++ t.points = pts at *
  generalize assign (pairs pts) = a at *
  have hlt : ∀ i j, a i = some j → j < i := fun i j h => (ha.1 i j h).1
  obtain ⟨h1, h2, h3, h4⟩ := number_spec a hlt pts.length
  refine ⟨?_, ?_, ?_⟩
  · rw [List.pairwise_map]
    refine List.Pairwise.imp_of_mem ?_ h2
    intro i j hi hj hij hn
    obtain ⟨hj1, hj2⟩ := (h3 j).1 hj
    exact (ha.2 j).1 hj2 ⟨i, hij, hj1, hn⟩
  · intro p hp
    obtain ⟨i, hi, rfl⟩ := List.mem_map.1 hp
    rw [List.getD_eq_getElem _ _ ((h3 i).1 hi).1]
    exact List.getElem_mem _
  · intro i hi
    refine ⟨_, by rw [List.length_map]; exact (h4 i hi).1, rfl, ?_⟩
    have hr : (((number a pts.length).2.map fun i => pts.getD i (0, 0)).getD ((number a pts.length).1.getD i 0) (0, 0)) = pts.getD (root a pts.length i) (0, 0) := by
      unfold root
      have hg := (h4 i hi).1
      generalize (number a pts.length).1.getD i 0 = k at hg ⊢
      rw [List.getD_eq_getElem _ _ (by rw [List.length_map]; exact hg), List.getElem_map, List.getD_eq_getElem (number a pts.length).2 0 hg]
    rw [hr]
    have hmem : ∀ k, k < pts.length → pts.getD k (0, 0) ∈ pts := fun k hk => by rw [List.getD_eq_getElem _ _ hk]; exact List.getElem_mem _
    have lift : ∀ j, Relation.ReflTransGen (fun i j => a i = some j) i j →
        Relation.ReflTransGen (fun p q => Near p q ∧ p ∈ pts ∧ q ∈ pts) (pts.getD i (0, 0)) (pts.getD j (0, 0)) := by
      intro j hj
      induction hj with
      | refl => exact Relation.ReflTransGen.refl
      | tail _ hs ih =>
        obtain ⟨q1, q2, q3⟩ := ha.1 _ _ hs
        exact Relation.ReflTransGen.tail ih ⟨q3, hmem _ q2, hmem _ (by omega)⟩
    exact lift _ (root_chain a hlt pts.length i hi).2.2

/-- Points that are near coincide. -/
def Separated (pts : List Point) : Prop := ∀ p ∈ pts, ∀ q ∈ pts, Near p q → p = q

/-- A sum draws what its summands draw, with each point once. -/
theorem sum {s t : Segment} (hs : Valid s) (htv : Valid t) (hsep : Separated (s.points ++ t.points)) :
    drawn (join pairs s t) = drawn s ++ drawn t ∧ Valid (join pairs s t) ∧ (join pairs s t).points.Nodup ∧
      (∀ p, p ∈ (join pairs s t).points ↔ p ∈ s.points ∨ p ∈ t.points) ∧ (join pairs s t).holes = s.holes ++ t.holes ∧
      (join pairs s t).transformations = s.transformations ++ t.transformations := by
  obtain ⟨h1, h2, h3⟩ := sum_points ht s t
  have hend : ∀ i, i < (s.points ++ t.points).length → (number (assign (pairs (s.points ++ t.points))) (s.points ++ t.points).length).1.getD i 0 < (join pairs s t).points.length ∧
      (join pairs s t).points.getD ((number (assign (pairs (s.points ++ t.points))) (s.points ++ t.points).length).1.getD i 0) (0, 0) = (s.points ++ t.points).getD i (0, 0) := by
    intro i hi
    obtain ⟨j, hj, rfl, hc⟩ := h3 i hi
    refine ⟨hj, ?_⟩
    generalize (join pairs s t).points.getD _ (0, 0) = x at hc
    induction hc with
    | refl => rfl
    | tail _ hs ih => rw [← ih]; exact (hsep _ hs.2.1 _ hs.2.2 hs.1).symm
  have hfac : ∀ f ∈ s.facets ++ t.facets.map (fun f => (f.1 + s.points.length, f.2 + s.points.length)), f.1 < (s.points ++ t.points).length ∧ f.2 < (s.points ++ t.points).length := by
    intro f hf
    rw [List.length_append]
    rcases List.mem_append.1 hf with hf | hf
    · have := hs f hf; omega
    · obtain ⟨g, hg, rfl⟩ := List.mem_map.1 hf
      have := htv g hg
      dsimp only; omega
  have hdraw : drawn (join pairs s t) = (s.facets ++ t.facets.map fun f => (f.1 + s.points.length, f.2 + s.points.length)).map
      fun f => ((s.points ++ t.points).getD f.1 (0, 0), (s.points ++ t.points).getD f.2 (0, 0)) := by
    unfold drawn
    conv_lhs => rw [show (join pairs s t).facets = (s.facets ++ t.facets.map fun f => (f.1 + s.points.length, f.2 + s.points.length)).map
      fun f => ((number (assign (pairs (s.points ++ t.points))) (s.points ++ t.points).length).1.getD f.1 0, (number (assign (pairs (s.points ++ t.points))) (s.points ++ t.points).length).1.getD f.2 0) from rfl]
    rw [List.map_map]
    apply List.map_congr_left
    intro f hf
    obtain ⟨g1, g2⟩ := hfac f hf
    dsimp only [Function.comp]
    rw [(hend _ g1).2, (hend _ g2).2]
  refine ⟨?_, ?_, ?_, ?_, rfl, rfl⟩
  · rw [hdraw, List.map_append, List.map_map]
    unfold drawn
    congr 1
    · apply List.map_congr_left
      intro f hf
      rw [List.getD_append _ _ _ _ (hs f hf).1, List.getD_append _ _ _ _ (hs f hf).2]
    · apply List.map_congr_left
      intro f hf
      dsimp only [Function.comp]
      rw [List.getD_append_right _ _ _ _ (by omega), List.getD_append_right _ _ _ _ (by omega), Nat.add_sub_cancel, Nat.add_sub_cancel]
  · intro f hf
    obtain ⟨g, hg, rfl⟩ := List.mem_map.1 hf
    exact ⟨(hend _ (hfac g hg).1).1, (hend _ (hfac g hg).2).1⟩
  · exact List.Pairwise.imp (fun h => fun e => h (by rw [e]; exact near_refl _)) h1
  · intro p
    rw [← List.mem_append]
    refine ⟨h2 p, fun hp => ?_⟩
    obtain ⟨i, hi, rfl⟩ := List.getElem_of_mem hp
    have := hend i hi
    rw [List.getD_eq_getElem (s.points ++ t.points) (0, 0) hi, List.getD_eq_getElem (join pairs s t).points (0, 0) this.1] at this
    rw [← this.2]
    exact List.getElem_mem _

end

/-! ### lines and polygons -/

/-- `line` with `n ≥ 2` points: from the start to the end in steps of equal size. -/
theorem line_draws {p q : Point} {n : Nat} (hn : 2 ≤ n) (hpq : 1 / 1000000000 ≤ (q.1 - p.1) ^ 2 + (q.2 - p.2) ^ 2) : Valid (line p q n) ∧ (line p q n).points.length = n ∧
    (∀ i, i < n → (line p q n).points.getD i (0, 0) = (p.1 + (i : ℝ) / (n - 1) * (q.1 - p.1), p.2 + (i : ℝ) / (n - 1) * (q.2 - p.2))) ∧
    (line p q n).points.getD 0 (0, 0) = p ∧ (line p q n).points.getD (n - 1) (0, 0) = q ∧ (line p q n).facets = (List.range (n - 1)).map fun i => (i, i + 1) := by
  have e : line p q n = ⟨(linspace01 n).map fun t => (p.1 + t * (q.1 - p.1), p.2 + t * (q.2 - p.2)), (List.range (n - 1)).map fun i => (i, i + 1), [], []⟩ := by
    unfold line; rw [if_neg (not_lt.2 hpq)]
  have hlen : (line p q n).points.length = n := by rw [e]; unfold linspace01; simp
  have hc : ((n - 1 : Nat) : ℝ) = n - 1 := by rw [Nat.cast_sub (by omega)]; simp
  have hv : ∀ i, i < n → (line p q n).points.getD i (0, 0) = (p.1 + (i : ℝ) / (n - 1) * (q.1 - p.1), p.2 + (i : ℝ) / (n - 1) * (q.2 - p.2)) := by
    intro i hi
    rw [List.getD_eq_getElem _ _ (by omega)]
    simp only [e, linspace01, List.getElem_map, List.getElem_range, hc]
  have hn1 : (n : ℝ) - 1 ≠ 0 := by rw [← hc]; exact_mod_cast (show n - 1 ≠ 0 by omega)
  refine ⟨?_, hlen, hv, ?_, ?_, by rw [e]⟩
  · intro f hf
    rw [e] at hf
    obtain ⟨i, hi, rfl⟩ := List.mem_map.1 hf
    have := List.mem_range.1 hi
    rw [hlen]
    dsimp only; omega
  · rw [hv 0 (by omega)]; simp
  · rw [hv (n - 1) (by omega), hc, div_self hn1]; simp

theorem line_two {p q : Point} (hpq : 1 / 1000000000 ≤ (q.1 - p.1) ^ 2 + (q.2 - p.2) ^ 2) : (line p q 2).points = [p, q] ∧ (line p q 2).facets = [(0, 1)] := by
  obtain ⟨_, hl, _, h0, h1, hf⟩ := line_draws (le_refl 2) hpq
  refine ⟨?_, hf⟩
  obtain ⟨a, b, e⟩ := List.length_eq_two.1 hl
  rw [e] at h0 h1 ⊢
  simp at h0 h1
  rw [h0, h1]

/-- The sides of the polygon through the points. -/
def sides : Point → List Point → List (Point × Point)
  | _, [] => []
  | p, q :: l => (p, q) :: sides q l

def Long (p q : Point) : Prop := 1 / 1000000000 ≤ (q.1 - p.1) ^ 2 + (q.2 - p.2) ^ 2

section
variable {pairs : List Point → List (Nat × Nat)} (ht : Tree pairs)
include ht

theorem polygonOf_draws (P : List Point) (hP : Separated P) : ∀ (l : List Point) (s : Segment) (p : Point), Valid s → (∀ x ∈ s.points, x ∈ P) → s.points.Nodup → p ∈ s.points →
    (∀ x ∈ l, x ∈ P) → (∀ e ∈ sides p l, Long e.1 e.2) → drawn (polygonOf pairs s p l) = drawn s ++ sides p l ∧ Valid (polygonOf pairs s p l) ∧
      (polygonOf pairs s p l).points.Nodup ∧ ∀ x, x ∈ (polygonOf pairs s p l).points ↔ x ∈ s.points ∨ x ∈ l := by
  intro l
  induction l with
  | nil => intro s p hv _ hn _ _ _; unfold polygonOf sides; simp [hv, hn]
  | cons q l ih =>
    intro s p hv hs hn hp hl hlong
    have hq := hl q (by simp)
    obtain ⟨e1, e2⟩ := line_two (p := p) (q := q) (hlong (p, q) (by simp [sides]))
    have hline : Valid (line p q 2) := (line_draws (le_refl 2) (hlong (p, q) (by simp [sides]))).1
    have hsep : Separated (s.points ++ (line p q 2).points) := by
      have hin : ∀ x ∈ s.points ++ (line p q 2).points, x ∈ P := by
        intro x hx
        rcases List.mem_append.1 hx with hx | hx
        · exact hs x hx
        · rw [e1] at hx
          simp only [List.mem_cons, List.not_mem_nil, or_false] at hx
          rcases hx with rfl | rfl
          · exact hs _ hp
          · exact hq
      intro x hx y hy
      exact hP x (hin x hx) y (hin y hy)
    obtain ⟨g1, g2, g3, g4, _, _⟩ := sum ht hv hline hsep
    have hmem : ∀ x, x ∈ (join pairs s (line p q 2)).points ↔ x ∈ s.points ∨ x = q := by
      intro x
      rw [g4, e1]
      simp only [List.mem_cons, List.not_mem_nil, or_false]
      constructor
      · rintro (h | rfl | rfl)
        · exact Or.inl h
        · exact Or.inl hp
        · exact Or.inr rfl
      · rintro (h | rfl)
        · exact Or.inl h
        · exact Or.inr (Or.inr rfl)
    obtain ⟨k1, k2, k3, k4⟩ := ih (join pairs s (line p q 2)) q g2 (fun x hx => by
      rcases (hmem x).1 hx with h | rfl
      · exact hs x h
      · exact hq) g3 ((hmem q).2 (Or.inr rfl)) (fun x hx => hl x (by simp [hx])) (fun e he => hlong e (by simp [sides, he]))
    unfold polygonOf
    refine ⟨?_, k2, k3, fun x => ?_⟩
    · rw [k1, g1, List.append_assoc]
      congr 1
      show (line p q 2).facets.map _ ++ _ = _
      rw [e2]
      simp only [List.map_cons, List.map_nil, e1]
      rfl
    · rw [k4, hmem, List.mem_cons]
      tauto

/-- A polygon draws its sides and has each of its points once. -/
theorem polygon_draws {p0 p1 : Point} {l : List Point} (hP : Separated (p0 :: p1 :: l)) (doClose : Bool)
    (hlong : ∀ e ∈ sides p0 (p1 :: (if doClose then l ++ [p0] else l)), Long e.1 e.2) : ∃ s, polygon pairs doClose (p0 :: p1 :: l) = some s ∧
      drawn s = sides p0 (p1 :: (if doClose then l ++ [p0] else l)) ∧ Valid s ∧ s.points.Nodup ∧ ∀ x, x ∈ s.points ↔ x ∈ p0 :: p1 :: l := by
  unfold polygon
  refine ⟨_, rfl, ?_⟩
  obtain ⟨e1, e2⟩ := line_two (p := p0) (q := p1) (hlong (p0, p1) (by simp [sides]))
  have h01 : p0 ≠ p1 := by
    rintro rfl
    have := hlong (p0, p0) (by simp [sides])
    unfold Long at this
    norm_num at this
  obtain ⟨k1, k2, k3, k4⟩ := polygonOf_draws ht (p0 :: p1 :: l) hP (if doClose then l ++ [p0] else l) (line p0 p1 2) p1
    (line_draws (le_refl 2) (hlong (p0, p1) (by simp [sides]))).1 (by rw [e1]; simp) (by rw [e1]; simp [h01]) (by rw [e1]; simp)
    (by intro x hx; cases doClose <;> simp at hx ⊢ <;> tauto) (fun e he => hlong e (by simp [sides, he]))
  refine ⟨?_, k2, k3, fun x => ?_⟩
  · rw [k1]
    unfold drawn
    rw [e2]
    simp only [List.map_cons, List.map_nil, e1]
    rfl
  · rw [k4, e1]
    cases doClose <;> simp <;> tauto

/-- `rectangle` draws a rectangle if the two coordinates of each corner agree. -/
theorem rectangle_partial {x y : ℝ} (hxy : x < y) (hbig : 1 / 1000 ≤ y - x) : ∃ s, rectangle pairs (x, x) (y, y) = some s ∧
    drawn s = [((x, x), (y, x)), ((y, x), (y, y)), ((y, y), (x, y)), ((x, y), (x, x))] := by
  unfold rectangle
  rw [if_pos ⟨hxy, hxy⟩]
  have hd : ∀ p q : Point, p ≠ q → (p = (x, x) ∨ p = (y, x) ∨ p = (y, y) ∨ p = (x, y)) → (q = (x, x) ∨ q = (y, x) ∨ q = (y, y) ∨ q = (x, y)) → 1 / 1000000 ≤ (p.1 - q.1) ^ 2 + (p.2 - q.2) ^ 2 := by
    intro p q hne hp hq
    have key : 1 / 1000000 ≤ (y - x) ^ 2 := by nlinarith
    rcases hp with rfl | rfl | rfl | rfl <;> rcases hq with rfl | rfl | rfl | rfl <;> first | exact absurd rfl hne | (dsimp only; nlinarith [sq_nonneg (y - x)])
  obtain ⟨s, h1, h2, _⟩ := polygon_draws ht (p0 := (x, x)) (p1 := (y, x)) (l := [(y, y), (x, y)]) (by
    intro p hp q hq hn
    by_contra hne
    simp only [List.mem_cons, List.not_mem_nil, or_false] at hp hq
    have := hd p q hne hp hq
    unfold Near at hn
    have h3 := len_sq (p - q)
    rw [Prod.fst_sub, Prod.snd_sub] at h3
    nlinarith [len_nonneg (p - q)]) true (by
    intro e he
    simp only [sides, if_true, List.cons_append, List.nil_append, List.mem_cons, List.not_mem_nil, or_false] at he
    unfold Long
    rcases he with rfl | rfl | rfl | rfl <;> (dsimp only; nlinarith))
  exact ⟨s, h1, h2⟩

/-- In general it does not: the corners are taken from wrong coordinates. -/
theorem rectangle_fails : ∃ s, rectangle pairs (0, 1) (2, 3) = some s ∧ ((0, 1), (2, 0)) ∈ drawn s ∧ s.transformations = [] := by
  unfold rectangle
  rw [if_pos (by norm_num)]
  obtain ⟨s, h1, h2, _⟩ := polygon_draws ht (p0 := (0, 1)) (p1 := (2, 0)) (l := [(2, 3), (0, 2)]) (by
    intro p hp q hq hn
    by_contra hne
    have h3 := len_sq (p - q)
    unfold Near at hn
    rw [Prod.fst_sub, Prod.snd_sub] at h3
    have h4 : len (p - q) ^ 2 ≤ 1 / 1000000 := by nlinarith [len_nonneg (p - q)]
    rw [h3] at h4
    simp only [List.mem_cons, List.not_mem_nil, or_false] at hp hq
    rcases hp with rfl | rfl | rfl | rfl <;> rcases hq with rfl | rfl | rfl | rfl <;> first | exact absurd rfl hne | norm_num at h4) true (by
    intro e he
    simp only [sides, if_true, List.cons_append, List.nil_append, List.mem_cons, List.not_mem_nil, or_false] at he
    unfold Long
    rcases he with rfl | rfl | rfl | rfl <;> norm_num)
  refine ⟨s, h1, by rw [h2]; simp [sides], ?_⟩
  have hline : ∀ p q : Point, (line p q 2).transformations = [] := fun p q => by unfold line; split <;> rfl
  have : ∀ (l : List Point) (s : Segment) (p : Point), s.transformations = [] → (polygonOf pairs s p l).transformations = [] := by
    intro l
    induction l with
    | nil => intro s p h; exact h
    | cons q l ih =>
      intro s p h
      unfold polygonOf
      refine ih _ _ ?_
      show s.transformations ++ (line p q 2).transformations = []
      rw [h, hline]; rfl
  unfold polygon at h1
  injection h1 with h1
  rw [← h1]
  exact this _ _ _ (hline _ _)

end

/-! ### moved segments -/

/-- Translations and rotations move what is drawn. -/
theorem moved (s : Segment) (hs : Valid s) (v c : Point) (angle : ℝ) :
    drawn (translate v s) = (drawn s).map (fun e => (v + e.1, v + e.2)) ∧ Valid (translate v s) ∧
    drawn (rotate c angle s) = (drawn s).map (fun e => (c + rot angle (e.1 - c), c + rot angle (e.2 - c))) ∧ Valid (rotate c angle s) ∧
    (translate v s).holes = s.holes.map (fun p => v + p) ∧ (rotate c angle s).holes = s.holes.map fun p => c + rot angle (p - c) := by
  have hget : ∀ (f : Point → Point) i, i < s.points.length → (s.points.map f).getD i (0, 0) = f (s.points.getD i (0, 0)) := fun f i hi => by
    rw [List.getD_eq_getElem _ _ (by rw [List.length_map]; exact hi), List.getElem_map, List.getD_eq_getElem _ _ hi]
  refine ⟨?_, ?_, ?_, ?_, rfl, rfl⟩
  · unfold drawn translate
    rw [List.map_map]
    apply List.map_congr_left
    intro f hf
    dsimp only [Function.comp]
    rw [hget _ _ (hs f hf).1, hget _ _ (hs f hf).2]
  · intro f hf
    show f.1 < (s.points.map _).length ∧ f.2 < (s.points.map _).length
    rw [List.length_map]
    exact hs f hf
  · unfold drawn rotate
    rw [List.map_map]
    apply List.map_congr_left
    intro f hf
    dsimp only [Function.comp]
    rw [hget _ _ (hs f hf).1, hget _ _ (hs f hf).2]
  · intro f hf
    show f.1 < (s.points.map _).length ∧ f.2 < (s.points.map _).length
    rw [List.length_map]
    exact hs f hf

theorem rotT_rot (angle : ℝ) (p : Point) : rotT angle (rot angle p) = p := by
  unfold rot rotT
  have h := Real.cos_sq_add_sin_sq angle
  ext
  · dsimp only; linear_combination p.1 * h
  · dsimp only; linear_combination p.2 * h

/-- Rotations keep distances, the centre, and are undone by the opposite angle; translations are undone by the opposite vector. -/
theorem rotation (c p q : Point) (angle : ℝ) : len ((c + rot angle (p - c)) - (c + rot angle (q - c))) = len (p - q) ∧ c + rot angle (c - c) = c ∧
    c + rot (-angle) ((c + rot angle (p - c)) - c) = p := by
  have h := Real.cos_sq_add_sin_sq angle
  refine ⟨?_, ?_, ?_⟩
  · unfold len rot
    congr 1
    simp only [Prod.fst_sub, Prod.snd_sub, Prod.fst_add, Prod.snd_add]
    linear_combination ((p.1 - q.1) ^ 2 + (p.2 - q.2) ^ 2) * h
  · unfold rot; ext <;> simp
  · have e : ∀ x, rot (-angle) x = rotT angle x := fun x => by unfold rot rotT; simp
    rw [add_sub_cancel_left, e, rotT_rot, add_sub_cancel]

/-- With at most one transformation, translated and rotated segments transform new vertices as the segment does in the former coordinates. -/
theorem transformations_partial (s : Segment) (h1 : s.transformations.length ≤ 1) (v c : Point) (angle : ℝ) (x1 x2 x : Point) :
    transform (translate v s).transformations (v + x1) (v + x2) (v + x) = (transform s.transformations x1 x2 x).map (v + ·) ∧
    transform (rotate c angle s).transformations (c + rot angle (x1 - c)) (c + rot angle (x2 - c)) (c + rot angle (x - c)) =
      (transform s.transformations x1 x2 x).map fun y => c + rot angle (y - c) := by
  unfold translate rotate transform
  dsimp only
  rcases hl : s.transformations with _ | ⟨t, l⟩
  · exact ⟨rfl, rfl⟩
  · rw [hl] at h1
    have : l = [] := by cases l with
      | nil => rfl
      | cons _ _ => simp at h1
    subst this
    constructor
    · have e : closures (shift v) [t] = [shift v t] := rfl
      rw [e]
      simp only [List.foldlM_cons, List.foldlM_nil, bind_pure]
      unfold shift
      simp only [add_sub_cancel_left]
    · have e : closures (turn c angle) [t] = [turn c angle t] := rfl
      rw [e]
      simp only [List.foldlM_cons, List.foldlM_nil, bind_pure]
      unfold turn
      simp only [add_sub_cancel_left, rotT_rot, add_sub_cancel]

/-- The transformation of an arc at the midpoint of an edge: never a division by zero; the vertex is moved away from the centre to the mean distance of the ends. -/
theorem arc {c : Point} {R a0 a1 : ℝ} {x1 x2 x : Point} (hx : x.1 = (x1.1 + x2.1) / 2 ∧ x.2 = (x1.2 + x2.2) / 2) : ∃ y, arcTransformation c R a0 a1 x1 x2 x = some y ∧
    (y = x ∨ (len (x - c) ≤ R ∧ len (y - c) = (len (x1 - c) + len (x2 - c)) / 2 ∧ ∃ t, 0 < t ∧ y = c + (t * (x.1 - c.1), t * (x.2 - c.2)))) ∧
    (len (x - c) ≤ R → a0 ≤ angleOf (x - c) → angleOf (x - c) ≤ a1 → 0 < (x1.1 - c.1) * (x2.1 - c.1) + (x1.2 - c.2) * (x2.2 - c.2) → len (y - c) = (len (x1 - c) + len (x2 - c)) / 2) := by
  unfold arcTransformation
  by_cases h1 : len (x - c) ≤ R
  · rw [if_pos h1]
    by_cases h2 : a0 ≤ angleOf (x - c) ∧ angleOf (x - c) ≤ a1
    · rw [if_pos h2]
      by_cases h3 : (x1 - c).1 * (x2 - c).1 + (x1 - c).2 * (x2 - c).2 ≤ 0
      · rw [if_pos h3]
        exact ⟨x, rfl, Or.inl rfl, fun _ _ _ h => absurd h (not_lt.2 h3)⟩
      · rw [if_neg h3]
        have hsq := len_sq (x - c)
        have hne : len (x - c) ≠ 0 := by
          intro h0
          rw [len_zero] at h0
          have e1 : x.1 - c.1 = 0 := congrArg Prod.fst h0
          have e2 : x.2 - c.2 = 0 := congrArg Prod.snd h0
          apply h3
          simp only [Prod.fst_sub, Prod.snd_sub]
          have q1 : x2.1 - c.1 = -(x1.1 - c.1) := by linarith [hx.1]
          have q2 : x2.2 - c.2 = -(x1.2 - c.2) := by linarith [hx.2]
          rw [q1, q2]
          nlinarith [sq_nonneg (x1.1 - c.1), sq_nonneg (x1.2 - c.2)]
        rw [if_neg hne]
        have hpos := lt_of_le_of_ne (len_nonneg (x - c)) (Ne.symm hne)
        have hd1 : 0 < len (x1 - c) := by
          refine lt_of_le_of_ne (len_nonneg _) fun h0 => h3 ?_
          rw [(len_zero (x1 - c)).1 h0.symm]; simp
        have hr : 0 < 1 / 2 * len (x1 - c) + 1 / 2 * len (x2 - c) := by linarith [len_nonneg (x2 - c)]
        refine ⟨_, rfl, ?_⟩
        generalize hrdef : 1 / 2 * len (x1 - c) + 1 / 2 * len (x2 - c) = r at *
        have hlen : len (c + ((x - c).1 * r / len (x - c), (x - c).2 * r / len (x - c)) - c) = (len (x1 - c) + len (x2 - c)) / 2 := by
          rw [add_sub_cancel_left]
          have h5 := len_sq ((x - c).1 * r / len (x - c), (x - c).2 * r / len (x - c))
          have : len ((x - c).1 * r / len (x - c), (x - c).2 * r / len (x - c)) ^ 2 = r ^ 2 := by
            rw [h5]
            dsimp only
            rw [div_pow, div_pow, mul_pow, mul_pow, ← add_div, ← add_mul, ← hsq, mul_div_assoc, mul_div_cancel₀]
            exact pow_ne_zero 2 hne
          rw [(sq_eq_sq₀ (len_nonneg _) hr.le).1 this, ← hrdef]
          ring
        refine ⟨Or.inr ⟨h1, hlen, r / len (x - c), div_pos hr hpos, ?_⟩, fun _ _ _ _ => hlen⟩
        congr 1
        ext
        · simp only [Prod.fst_sub]; ring
        · simp only [Prod.snd_sub]; ring
    · rw [if_neg h2]
      exact ⟨x, rfl, Or.inl rfl, fun _ h h' => absurd ⟨h, h'⟩ h2⟩
  · rw [if_neg h1]
    exact ⟨x, rfl, Or.inl rfl, fun h => absurd h h1⟩

theorem angle_range (p : Point) : 0 ≤ angleOf p ∧ angleOf p ≤ 2 * Real.pi := by
  unfold angleOf
  have h1 := Complex.neg_pi_lt_arg ⟨p.1, p.2⟩
  have h2 := Complex.arg_le_pi ⟨p.1, p.2⟩
  split
  · constructor <;> linarith [Real.pi_pos]
  · rename_i h
    exact ⟨not_lt.1 h, by linarith [Real.pi_pos]⟩

/-- The angle of the arc test is the angle of the polar coordinates. -/
theorem angle (p : Point) : 0 ≤ angleOf p ∧ angleOf p < 2 * Real.pi ∧ p = (len p * Real.cos (angleOf p), len p * Real.sin (angleOf p)) := by
  have h1 := Complex.neg_pi_lt_arg ⟨p.1, p.2⟩
  have h2 := Complex.arg_le_pi ⟨p.1, p.2⟩
  have hl : len p = ‖(⟨p.1, p.2⟩ : ℂ)‖ := by
    unfold len
    rw [Complex.norm_eq_sqrt_sq_add_sq]
  have hc := Complex.norm_mul_cos_arg ⟨p.1, p.2⟩
  have hs := Complex.norm_mul_sin_arg ⟨p.1, p.2⟩
  rw [← hl] at hc hs
  refine ⟨(angle_range p).1, ?_, ?_⟩
  · unfold angleOf
    split <;> linarith [Real.pi_pos]
  · unfold angleOf
    split
    · rw [Real.cos_add_two_pi, Real.sin_add_two_pi]
      exact Prod.ext hc.symm hs.symm
    · exact Prod.ext hc.symm hs.symm

theorem len_34 : len (3, 4) = 5 := by
  unfold len
  rw [show ((3 : ℝ), (4 : ℝ)).1 ^ 2 + ((3 : ℝ), (4 : ℝ)).2 ^ 2 = 5 ^ 2 by norm_num]
  exact Real.sqrt_sq (by norm_num)

/-- Two circles of radius 5 around (0,0) and (100,0): the sum transforms the midpoint of (5,0) and (3,4) to a point of the first circle, the translated sum leaves the
translated midpoint where it is, since all translated transformations are that of the second circle. -/
theorem transformations_fails : ∃ (s : Segment) (x1 x2 x y : Point), s.transformations = [arcTransformation (0, 0) 5 0 (2 * Real.pi), arcTransformation (100, 0) 5 0 (2 * Real.pi)] ∧
    transform s.transformations x1 x2 x = some y ∧ len y = 5 ∧ transform (translate (1, 1) s).transformations ((1, 1) + x1) ((1, 1) + x2) ((1, 1) + x) = some ((1, 1) + x) ∧ len x < 5 := by
  have hx : ((4 : ℝ), (2 : ℝ)).1 = ((5 : ℝ) + 3) / 2 ∧ ((4 : ℝ), (2 : ℝ)).2 = ((0 : ℝ) + 4) / 2 := by norm_num
  have hlx : len (4, 2) < 5 := by
    have := len_sq (4, 2)
    dsimp only at this
    nlinarith [len_nonneg (4, 2)]
  obtain ⟨y, hy, _, hy3⟩ := arc (c := (0, 0)) (R := 5) (a0 := 0) (a1 := 2 * Real.pi) (x1 := (5, 0)) (x2 := (3, 4)) (x := (4, 2)) hx
  have h0 : ∀ p : Point, p - (0, 0) = p := fun p => by ext <;> simp
  simp only [h0] at hy3
  have hl5 : len (5, 0) = 5 := by
    unfold len
    rw [show ((5 : ℝ), (0 : ℝ)).1 ^ 2 + ((5 : ℝ), (0 : ℝ)).2 ^ 2 = 5 ^ 2 by norm_num]
    exact Real.sqrt_sq (by norm_num)
  have hy5 : len y = 5 := by
    rw [hy3 hlx.le (angle_range _).1 (angle_range _).2 (by norm_num), hl5, len_34]; norm_num
  have hfar : ∀ p : Point, len p ≤ 5 → ¬ len (p - (100, 0)) ≤ 5 := by
    intro p hp hq
    have h1 := len_sq p
    have h2 := len_sq (p - (100, 0))
    simp only [Prod.fst_sub, Prod.snd_sub] at h2
    have h3 : len p ^ 2 ≤ 25 := by nlinarith [len_nonneg p]
    have h4 : len (p - (100, 0)) ^ 2 ≤ 25 := by nlinarith [len_nonneg (p - (100, 0))]
    nlinarith [sq_nonneg p.2, sq_nonneg (p.1 - 50)]
  have hstay : ∀ x1 x2 p : Point, len p ≤ 5 → arcTransformation (100, 0) 5 0 (2 * Real.pi) x1 x2 p = some p := fun x1 x2 p hp => by
    unfold arcTransformation
    rw [if_neg (hfar p hp)]
  refine ⟨⟨[], [], [], [arcTransformation (0, 0) 5 0 (2 * Real.pi), arcTransformation (100, 0) 5 0 (2 * Real.pi)]⟩, (5, 0), (3, 4), (4, 2), y, rfl, ?_, hy5, ?_, hlx⟩
  · unfold transform
    rw [List.foldlM_cons, hy]
    show (arcTransformation (100, 0) 5 0 (2 * Real.pi) (5, 0) (3, 4) y >>= fun y => pure y) = some y
    rw [hstay _ _ _ hy5.le]
    rfl
  · have hs : ∀ x1 x2, shift (1, 1) (arcTransformation (100, 0) 5 0 (2 * Real.pi)) x1 x2 ((1, 1) + (4, 2)) = some ((1, 1) + (4, 2)) := fun x1 x2 => by
      unfold shift
      rw [add_sub_cancel_left, hstay _ _ _ hlx.le]
      rfl
    have e : ∀ t1 t2 : Transformation, closures (shift (1, 1)) [t1, t2] = [shift (1, 1) t2, shift (1, 1) t2] := fun _ _ => rfl
    unfold translate transform
    dsimp only
    rw [e]
    rw [List.foldlM_cons, hs]
    show (shift (1, 1) (arcTransformation (100, 0) 5 0 (2 * Real.pi)) ((1, 1) + (5, 0)) ((1, 1) + (3, 4)) ((1, 1) + (4, 2)) >>= fun y => pure y) = _
    rw [hs]
    rfl

/-! ### joined meshes -/

section
variable {α : Type} (near : α → α → Prop) (d : α)

theorem snap_spec (V1 : List α) (neighbours : α → List Nat) (hn : ∀ v i, i ∈ neighbours v ↔ i < V1.length ∧ near v (V1.getD i d)) :
    ∀ (V2 : List α) (s : List Nat × List α), snapVertices V1.length neighbours V2 = some s → s.1.length = V2.length ∧
      (∀ i, i < V2.length → s.1.getD i 0 < (V1 ++ s.2).length ∧ ((V1 ++ s.2).getD (s.1.getD i 0) d = V2.getD i d ∨ near (V2.getD i d) ((V1 ++ s.2).getD (s.1.getD i 0) d))) ∧
      s.2.Sublist V2 ∧ ∀ v ∈ s.2, ∀ w ∈ V1, ¬ near v w := by
  intro V2
  induction V2 using List.reverseRecOn with
  | nil =>
    intro s h
    injection h with h
    subst h
    exact ⟨rfl, by simp, by simp, by simp⟩
  | append_singleton V2 v ih =>
    intro s h
    unfold snapVertices at h ih
    rw [List.foldlM_append] at h
    cases hf : V2.foldlM (snapStep V1.length neighbours) (([], []) : List Nat × List α) with
    | none =>
      rw [hf] at h
      exact absurd h (by simp)
    | some r =>
      rw [hf] at h ih
      obtain ⟨h1, h2, h3, h4⟩ := ih r rfl
      have hstep : snapStep V1.length neighbours r v = some s := by
        rw [← h]
        show _ = (snapStep V1.length neighbours r v >>= fun s => pure s)
        rw [bind_pure]
      unfold snapStep at hstep
      have hlast : ∀ x : Nat, (r.1 ++ [x]).getD V2.length 0 = x := fun x => by
        rw [List.getD_append_right _ _ _ _ (by omega), h1, Nat.sub_self]; rfl
      have hlastv : (V2 ++ [v]).getD V2.length d = v := by
        rw [List.getD_append_right _ _ _ _ (le_refl _), Nat.sub_self]; rfl
      rcases hv : neighbours v with _ | ⟨i, _ | ⟨j, l⟩⟩
      · rw [hv] at hstep
        injection hstep with hstep
        subst hstep
        dsimp only
        refine ⟨by rw [List.length_append, List.length_append, h1]; rfl, ?_, h3.append (List.Sublist.refl _), ?_⟩
        · intro i hi
          rw [List.length_append, List.length_singleton] at hi
          rcases Nat.lt_or_ge i V2.length with hlt | hge
          · rw [List.getD_append _ _ _ _ (show i < r.1.length by omega), List.getD_append V2 [v] d i hlt, ← List.append_assoc,
              List.getD_append _ _ _ _ (h2 i hlt).1, List.length_append]
            exact ⟨by have := (h2 i hlt).1; omega, (h2 i hlt).2⟩
          · obtain rfl : i = V2.length := by omega
            rw [hlast, hlastv]
            refine ⟨by simp, Or.inl ?_⟩
            rw [List.getD_append_right _ _ _ _ (by omega), Nat.add_sub_cancel_left, List.getD_append_right _ _ _ _ (le_refl _), Nat.sub_self]
            rfl
        · intro w hw u hu hnear
          rcases List.mem_append.1 hw with hw | hw
          · exact h4 w hw u hu hnear
          · rw [List.mem_singleton.1 hw] at hnear
            obtain ⟨k, hk, rfl⟩ := List.getElem_of_mem hu
            have : k ∈ neighbours v := (hn v k).2 ⟨hk, by rw [List.getD_eq_getElem _ _ hk]; exact hnear⟩
            rw [hv] at this
            exact absurd this (by simp)
      · rw [hv] at hstep
        injection hstep with hstep
        subst hstep
        dsimp only
        obtain ⟨hi1, hi2⟩ := (hn v i).1 (by rw [hv]; simp)
        refine ⟨by rw [List.length_append, List.length_append, h1]; rfl, ?_, h3.trans (List.sublist_append_left _ _), h4⟩
        intro k hk
        rw [List.length_append, List.length_singleton] at hk
        rcases Nat.lt_or_ge k V2.length with hlt | hge
        · rw [List.getD_append _ _ _ _ (show k < r.1.length by omega), List.getD_append V2 [v] d k hlt]
          exact h2 k hlt
        · obtain rfl : k = V2.length := by omega
          rw [hlast, hlastv, List.getD_append _ _ _ _ hi1]
          exact ⟨by rw [List.length_append]; omega, Or.inr hi2⟩
      · rw [hv] at hstep
        exact absurd hstep (by simp)

/-- Joined meshes: the first mesh is kept, the cells of the second one follow in their order with vertices at the same places up to the tolerance, and no vertex is there
twice if this holds for the two meshes. -/
theorem snap {m1 m2 m : List α × List (List Nat)} {neighbours : α → List Nat} (hn : ∀ v i, i ∈ neighbours v ↔ i < m1.1.length ∧ near v (m1.1.getD i d))
    (hc2 : ∀ c ∈ m2.2, ∀ v ∈ c, v < m2.1.length) (h : snapMeshes neighbours m1 m2 = some m) :
    m1.1 <+: m.1 ∧ m1.2 <+: m.2 ∧ m.2.length = m1.2.length + m2.2.length ∧
    (∀ k, k < m2.2.length → (m.2.getD (m1.2.length + k) []).length = (m2.2.getD k []).length ∧ ∀ j, j < (m2.2.getD k []).length →
      (m.2.getD (m1.2.length + k) []).getD j 0 < m.1.length ∧
        (m.1.getD ((m.2.getD (m1.2.length + k) []).getD j 0) d = m2.1.getD ((m2.2.getD k []).getD j 0) d ∨
          near (m2.1.getD ((m2.2.getD k []).getD j 0) d) (m.1.getD ((m.2.getD (m1.2.length + k) []).getD j 0) d))) ∧
    ((∀ v w, near v w → near w v) → m1.1.Pairwise (fun v w => ¬ near v w) → m2.1.Pairwise (fun v w => ¬ near v w) → m.1.Pairwise fun v w => ¬ near v w) := by
  unfold snapMeshes at h
  cases hs : snapVertices m1.1.length neighbours m2.1 with
  | none => rw [hs] at h; exact absurd h (by simp)
  | some s =>
    rw [hs] at h
    injection h with h
    subst h
    obtain ⟨h1, h2, h3, h4⟩ := snap_spec near d m1.1 neighbours hn m2.1 s hs
    refine ⟨List.prefix_append _ _, List.prefix_append _ _, by simp, ?_, ?_⟩
    · intro k hk
      dsimp only
      have hcell : (m1.2 ++ m2.2.map fun c => c.map fun v => s.1.getD v 0).getD (m1.2.length + k) [] = (m2.2.getD k []).map fun v => s.1.getD v 0 := by
        rw [List.getD_append_right _ _ _ _ (by omega), Nat.add_sub_cancel_left, List.getD_eq_getElem _ _ (by rw [List.length_map]; exact hk), List.getElem_map,
          List.getD_eq_getElem _ _ hk]
      rw [hcell]
      refine ⟨by rw [List.length_map], fun j hj => ?_⟩
      have hj' : ((m2.2.getD k []).map fun v => s.1.getD v 0).getD j 0 = s.1.getD ((m2.2.getD k []).getD j 0) 0 := by
        rw [List.getD_eq_getElem _ _ (by rw [List.length_map]; exact hj), List.getElem_map, List.getD_eq_getElem (m2.2.getD k []) 0 hj]
      rw [hj']
      have hv : (m2.2.getD k []).getD j 0 < m2.1.length := by
        refine hc2 (m2.2.getD k []) (by rw [List.getD_eq_getElem _ _ hk]; exact List.getElem_mem _) _ ?_
        rw [List.getD_eq_getElem (m2.2.getD k []) 0 hj]
        exact List.getElem_mem _
      exact h2 _ hv
    · intro hsym p1 p2
      rw [List.pairwise_append]
      exact ⟨p1, p2.sublist h3, fun v hv w hw hnear => h4 w hw v hv (hsym _ _ hnear)⟩

omit near d in
/-- Meshes can be joined unless a vertex of the second one has several neighbours in the first one. -/
theorem snap_works (neighbours : α → List Nat) (m1 m2 : List α × List (List Nat)) : (snapMeshes neighbours m1 m2).isSome ↔ ∀ v ∈ m2.1, (neighbours v).length ≤ 1 := by
  have key : ∀ (V : List α) (s : List Nat × List α), (V.foldlM (snapStep m1.1.length neighbours) s).isSome ↔ ∀ v ∈ V, (neighbours v).length ≤ 1 := by
    intro V
    induction V with
    | nil => intro s; simp
    | cons v V ih =>
      intro s
      rw [List.foldlM_cons, List.forall_mem_cons]
      unfold snapStep
      rcases neighbours v with _ | ⟨i, _ | ⟨j, l⟩⟩
      · exact (ih _).trans (by simp)
      · exact (ih _).trans (by simp)
      · simp
  rw [← key m2.1 ([], [])]
  unfold snapMeshes snapVertices
  cases m2.1.foldlM (snapStep m1.1.length neighbours) ([], []) <;> simp

end

/-- A case that meets the hypotheses: the unit square as a polygon; two intervals that share a point. -/
theorem sample_case : (∃ pairs, Tree pairs ∧ ∃ s, polygon pairs true [(0, 0), (1, 0), (1, 1)] = some s ∧ drawn s = [((0, 0), (1, 0)), ((1, 0), (1, 1)), ((1, 1), (0, 0))]) ∧
    snapMeshes (fun v : Nat => if v = 5 then [1] else []) ([3, 5], [[0, 1]]) ([5, 9], [[0, 1]]) = some ([3, 5, 9], [[0, 1], [1, 2]]) := by
  constructor
  · classical
    let pairs : List Point → List (Nat × Nat) := fun pts => ((List.range pts.length).flatMap fun j => (List.range j).map fun i => (i, j)).filter
      fun p => decide (Near (pts.getD p.1 (0, 0)) (pts.getD p.2 (0, 0)))
    have ht : Tree pairs := by
      intro pts i j
      show (i, j) ∈ List.filter _ _ ↔ _
      rw [List.mem_filter, List.mem_flatMap]
      simp only [List.mem_range, List.mem_map, Prod.mk.injEq, decide_eq_true_eq]
      constructor
      · rintro ⟨⟨j', hj, i', hi, rfl, rfl⟩, hn⟩; exact ⟨hi, hj, hn⟩
      · rintro ⟨hi, hj, hn⟩; exact ⟨⟨j, hj, i, hi, rfl, rfl⟩, hn⟩
    obtain ⟨s, h1, h2, _⟩ := polygon_draws ht (p0 := (0, 0)) (p1 := (1, 0)) (l := [(1, 1)]) (by
      intro p hp q hq hn
      by_contra hne
      have h3 := len_sq (p - q)
      unfold Near at hn
      rw [Prod.fst_sub, Prod.snd_sub] at h3
      have h4 : len (p - q) ^ 2 ≤ 1 / 1000000 := by nlinarith [len_nonneg (p - q)]
      rw [h3] at h4
      simp only [List.mem_cons, List.not_mem_nil, or_false] at hp hq
      rcases hp with rfl | rfl | rfl <;> rcases hq with rfl | rfl | rfl <;> first | exact absurd rfl hne | norm_num at h4) true (by
      intro e he
      simp only [sides, if_true, List.cons_append, List.nil_append, List.mem_cons, List.not_mem_nil, or_false] at he
      unfold Long
      rcases he with rfl | rfl | rfl <;> norm_num)
    exact ⟨pairs, ht, s, h1, h2⟩
  · decide

end PyNucleus.Props.C90
