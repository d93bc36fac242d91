import Verif.Proof.StructuredMesh
import Mathlib.Algebra.Order.Archimedean.Basic
import Mathlib.Data.List.Nodup
import Mathlib.Data.Rat.Floor
import Mathlib.Tactic.IntervalCases
import Mathlib.Tactic.NormNum

/-!
# C86: structured meshes are triangulations of the domain
-/

namespace PyNucleus.Props.C86

open StructuredMesh Triangulation

variable {K : Type} [Field K] [LinearOrder K] [IsStrictOrderedRing K]

/-- The coordinates are listed in increasing order, and there are at least two. -/
def Lines (x : List K) : Prop := x.Pairwise (· < ·) ∧ 2 ≤ x.length

/-- First and last entry. -/
def first (x : List K) : K := x.getD 0 0
def last (x : List K) : K := x.getD (x.length - 1) 0

/-- The position of the vertices of a mesh. -/
abbrev pos (m : Mesh K) : Nat → Nat → K := fun v k => (m.vertices.getD v []).getD k 0

/-- A mesh of triangles of the domain `D`, all cells counted counterclockwise. -/
structure Triangles (m : Mesh K) (D : (Nat → K) → Prop) : Prop where
  valid : ∀ c ∈ m.cells, ∀ v ∈ c, v < m.vertices.length
  distinct : m.vertices.Nodup
  oriented : ∀ c ∈ m.cells, ∃ a b d, c = [a, b, d] ∧ 0 < area (pos m) a b d
  conforming : Conforming (pos m) m.cells
  covers : Covers (pos m) m.cells D

/-- A mesh of tetrahedra of the domain `D`, all cells of positive orientation. -/
structure Tetrahedra (m : Mesh K) (D : (Nat → K) → Prop) : Prop where
  valid : ∀ c ∈ m.cells, ∀ v ∈ c, v < m.vertices.length
  distinct : m.vertices.Nodup
  oriented : ∀ c ∈ m.cells, ∃ a b d e, c = [a, b, d, e] ∧ 0 < volume (pos m) a b d e
  conforming : Conforming (pos m) m.cells
  covers : Covers (pos m) m.cells D

theorem between_two {a b c d : K} {p : Nat → K} :
    Between [a, b] [c, d] p ↔ (a ≤ p 0 ∧ p 0 ≤ c) ∧ (b ≤ p 1 ∧ p 1 ≤ d) ∧ ∀ k, k ≠ 0 → k ≠ 1 → p k = 0 := by
  unfold Between
  constructor
  · intro h
    refine ⟨h 0, h 1, fun k h0 h1 => ?_⟩
    have := h k
    rw [List.getD_eq_default _ _ (by simp; omega), List.getD_eq_default _ _ (by simp; omega)] at this
    exact le_antisymm this.2 this.1
  · rintro ⟨h0, h1, h2⟩ k
    rcases k with _ | _ | k
    · exact h0
    · exact h1
    · rw [h2 _ (by omega) (by omega)]
      exact ⟨le_rfl, le_rfl⟩

theorem between_three {a b c a' b' c' : K} {p : Nat → K} :
    Between [a, b, c] [a', b', c'] p ↔ (a ≤ p 0 ∧ p 0 ≤ a') ∧ (b ≤ p 1 ∧ p 1 ≤ b') ∧ (c ≤ p 2 ∧ p 2 ≤ c') ∧ ∀ k, 3 ≤ k → p k = 0 := by
  unfold Between
  constructor
  · intro h
    refine ⟨h 0, h 1, h 2, fun k h0 => ?_⟩
    have := h k
    rw [List.getD_eq_default _ _ (by simpa using h0), List.getD_eq_default _ _ (by simpa using h0)] at this
    exact le_antisymm this.2 this.1
  · rintro ⟨h0, h1, h2, h3⟩ k
    rcases k with _ | _ | _ | k
    · exact h0
    · exact h1
    · exact h2
    · rw [h3 _ (by omega)]
      exact ⟨le_rfl, le_rfl⟩

theorem number_lt {N M a b : Nat} (ha : a < N) (hb : b < M) : b * N + a < M * N := by
  calc b * N + a < b * N + N := by omega
    _ = (b + 1) * N := by ring
    _ ≤ M * N := Nat.mul_le_mul_right _ hb

theorem gridCells_valid {crossed : Bool} {N M : Nat} {c : List Nat} (hc : c ∈ gridCells crossed N M) {v : Nat} (hv : v ∈ c) : v < M * N := by
  obtain ⟨i, j, hi, hj, hm⟩ := mem_gridCells.1 hc
  have h00 := number_lt (show j < N by omega) (show i < M by omega)
  have h10 := number_lt hj (show i < M by omega)
  have h01 := number_lt (show j < N by omega) hi
  have h11 := number_lt hj hi
  rw [← Nat.add_assoc] at h10 h11
  rcases squareCells_cases crossed N i j with ⟨h, -⟩ | ⟨h, -⟩ <;> rw [h] at hm
  · simp only [risingCells, List.mem_cons, List.not_mem_nil, or_false] at hm
    rcases hm with rfl | rfl <;> simp only [List.mem_cons, List.not_mem_nil, or_false] at hv <;> rcases hv with rfl | rfl | rfl <;> assumption
  · simp only [fallingCells, List.mem_cons, List.not_mem_nil, or_false] at hm
    rcases hm with rfl | rfl <;> simp only [List.mem_cons, List.not_mem_nil, or_false] at hv <;> rcases hv with rfl | rfl | rfl <;> assumption

theorem incr_nodup {x : List K} (h : x.Pairwise (· < ·)) : x.Nodup := h.imp fun h => h.ne

theorem meshgrid_nodup {x y : List K} (hx : x.Nodup) (hy : y.Nodup) : (meshgrid x y).Nodup := by
  unfold meshgrid
  rw [List.nodup_flatMap]
  refine ⟨fun b _ => hx.map fun a a' h => by simpa using h, ?_⟩
  refine hy.imp fun {b b'} hb => ?_
  intro q h1 h2
  simp only [List.mem_map] at h1 h2
  obtain ⟨a, -, rfl⟩ := h1
  obtain ⟨a', -, e⟩ := h2
  simp at e
  exact hb e.2.symm

theorem tensor_nodup {x y : List K} (hx : x.Nodup) (hy : y.Nodup) : (x.flatMap fun a => y.map fun b => [a, b]).Nodup := by
  rw [List.nodup_flatMap]
  refine ⟨fun b _ => hy.map fun a a' h => by simpa using h, ?_⟩
  refine hx.imp fun {b b'} hb => ?_
  intro q h1 h2
  simp only [List.mem_map] at h1 h2
  obtain ⟨a, -, rfl⟩ := h1
  obtain ⟨a', -, e⟩ := h2
  simp at e
  exact hb e.1.symm

theorem box_nodup {x y z : List K} (hx : x.Nodup) (hy : y.Nodup) (hz : z.Nodup) : (boxOf x y z).vertices.Nodup := by
  unfold boxOf
  dsimp only
  rw [List.nodup_flatMap]
  refine ⟨fun c _ => ?_, ?_⟩
  · rw [List.nodup_flatMap]
    refine ⟨fun b _ => hx.map fun a a' h => by simpa using h, hy.imp fun {b b'} hb => ?_⟩
    intro q h1 h2
    simp only [List.mem_map] at h1 h2
    obtain ⟨a, -, rfl⟩ := h1
    obtain ⟨a', -, e⟩ := h2
    simp at e
    exact hb e.2.symm
  · refine hz.imp fun {b b'} hb => ?_
    intro q h1 h2
    simp only [List.mem_map, List.mem_flatMap] at h1 h2
    obtain ⟨a, -, c, -, rfl⟩ := h1
    obtain ⟨a', -, c', -, e⟩ := h2
    simp at e
    exact hb e.2.2.symm

theorem meshgrid_length (x y : List K) : (meshgrid x y).length = y.length * x.length :=
  length_flatMap_const x.length _ (fun _ => by simp) y

/-- **Rectangles.**  For increasing grid lines `uniformSquare` returns a triangulation of the rectangle, with or without crossed diagonals; the
vertices are the grid points. -/
theorem square {eps : K} {crossed : Bool} {linesH linesV x y : List K} {m : Mesh K} (h : uniformSquareOf eps crossed linesH linesV x y = some m)
    (hx : Lines x) (hy : Lines y) :
    Triangles m (Between [first x, first y] [last x, last y]) ∧ (∀ q, q ∈ m.vertices ↔ ∃ a ∈ x, ∃ b ∈ y, q = [a, b]) ∧
      m.cells.length = 2 * (x.length - 1) * (y.length - 1) := by
  unfold uniformSquareOf at h
  split_ifs at h
  obtain rfl := Option.some.inj h
  have hg := grid_meshgrid x y (gridCells crossed x.length y.length)
  refine ⟨⟨?_, meshgrid_nodup (incr_nodup hx.1) (incr_nodup hy.1), fun c hc => square_area hg hx.1 hy.1 hc, conforming2 hg hx.1 hy.1 crossed, fun p => ?_⟩, ?_, ?_⟩
  · intro c hc v hv
    rw [meshgrid_length]
    exact gridCells_valid hc hv
  · rw [between_two]
    exact (covers2 hg (by decide) hx.1 hy.1 hx.2 hy.2 crossed).symm
  · intro q
    simp only [meshgrid, List.mem_flatMap, List.mem_map]
    constructor
    · rintro ⟨b, hb, a, ha, rfl⟩; exact ⟨a, ha, b, hb, rfl⟩
    · rintro ⟨a, ha, b, hb, rfl⟩; exact ⟨b, hb, a, ha, rfl⟩
  · have h1 : ∀ i, ((List.range (x.length - 1)).flatMap fun j => squareCells crossed x.length i j).length = (x.length - 1) * 2 := fun i => by
      rw [length_flatMap_const 2]
      · simp
      · intro j; rcases squareCells_cases crossed x.length i j with ⟨h, -⟩ | ⟨h, -⟩ <;> rw [h] <;> rfl
    show (gridCells crossed x.length y.length).length = _
    unfold gridCells
    rw [length_flatMap_const _ _ h1, List.length_range]
    ring

theorem linspace_lines {a b : K} (h : a < b) {n : Nat} (hn : 2 ≤ n) : Lines (linspace a b n) := ⟨linspace_incr h n, by rw [linspace_length]; exact hn⟩

theorem first_linspace (a b : K) {n : Nat} (hn : 2 ≤ n) : first (linspace a b n) = a := linspace_first a b (by omega)

theorem last_linspace (a b : K) {n : Nat} (hn : 2 ≤ n) : last (linspace a b n) = b := by
  unfold last
  rw [linspace_length]
  exact linspace_last a b hn

/-- **Equidistant rectangles.**  `uniformSquare` without given lines fails only for less than two points per direction, and triangulates the
rectangle with the given corners. -/
theorem uniform_square (round : K → Int) (eps : K) (N : Nat) (M : Option Nat) {ax ay bx bY : K} (hx : ax < bx) (hy : ay < bY) (crossed : Bool) :
    (2 ≤ N → (∀ n, M = some n → 2 ≤ n) → (uniformSquare round eps N M ax ay bx bY crossed [] []).isSome = true) ∧
      ∀ linesH linesV m, uniformSquare round eps N M ax ay bx bY crossed linesH linesV = some m →
        2 ≤ N ∧ ∃ n, 2 ≤ n ∧ (∀ k, M = some k → n = k) ∧ m.vertices.length = N * n ∧ Triangles m (Between [ax, ay] [bx, bY]) := by
  constructor
  · intro hN hM
    cases M with
    | none =>
      simp only [uniformSquare]
      rw [if_pos ⟨hN, by omega⟩]
      rfl
    | some n =>
      simp only [uniformSquare]
      rw [if_pos ⟨hN, hM n rfl⟩]
      rfl
  · intro linesH linesV m h
    have key : ∀ n, (∀ k, M = some k → n = k) → (if 2 ≤ N ∧ 2 ≤ n then uniformSquareOf eps crossed linesH linesV (linspace ax bx N) (linspace ay bY n) else none) = some m →
        2 ≤ N ∧ ∃ n, 2 ≤ n ∧ (∀ k, M = some k → n = k) ∧ m.vertices.length = N * n ∧ Triangles m (Between [ax, ay] [bx, bY]) := by
      intro n hk h
      split_ifs at h with hb
      have t := (square h (linspace_lines hx hb.1) (linspace_lines hy hb.2)).1
      rw [first_linspace ax bx hb.1, first_linspace ay bY hb.2, last_linspace ax bx hb.1, last_linspace ay bY hb.2] at t
      refine ⟨hb.1, n, hb.2, hk, ?_, t⟩
      unfold uniformSquareOf at h
      split_ifs at h
      obtain rfl := Option.some.inj h
      show (meshgrid _ _).length = _
      rw [meshgrid_length, linspace_length, linspace_length, Nat.mul_comm]
    unfold uniformSquare at h
    cases M with
    | none => exact key _ (fun k hk => by simp at hk) h
    | some n => exact key n (fun k hk => by simpa using hk) h

/-- **Lines to preserve.**  Grid lines are accepted. -/
theorem lines_accepted {eps : K} (he : 0 < eps) (crossed : Bool) {linesH linesV x y : List K} (hh : ∀ l ∈ linesH, l ∈ y) (hv : ∀ l ∈ linesV, l ∈ x) :
    (uniformSquareOf eps crossed linesH linesV x y).isSome = true := by
  have key : ∀ {lines vals : List K}, (∀ l ∈ lines, l ∈ vals) → linesOk eps vals lines = true := fun h => by
    unfold linesOk
    rw [List.all_eq_true]
    intro l hl
    rw [List.any_eq_true]
    exact ⟨l, h l hl, by simpa using he⟩
  unfold uniformSquareOf
  rw [key hh, key hv]
  rfl

/-- **Defect.**  A line that is no grid line is accepted as well: the assertion lacks the absolute value.  The only horizontal lines of the mesh
are `y = 0` and `y = 1`, and the line to preserve is `y = 1 / 2`. -/
theorem lines_fails : ∃ m, uniformSquare (K := ℚ) (fun q => ⌊q⌋) (1 / 10 ^ 10) 2 (some 2) 0 0 1 1 false [1 / 2] [] = some m ∧
    ∀ q ∈ m.vertices, q.getD 1 0 = 0 ∨ q.getD 1 0 = 1 := by
  refine ⟨⟨[[0, 0], [1, 0], [0, 1], [1, 1]], [[0, 1, 3], [0, 3, 2]]⟩, by decide +kernel, by decide +kernel⟩

/-- **Squares with interactions.**  The uniform variant is a conforming mesh of the rectangle, but all its cells are counted clockwise. -/
theorem tensor_partial {x y : List K} (hx : Lines x) (hy : Lines y) :
    (∀ c ∈ (tensorSquare x y).cells, ∀ v ∈ c, v < (tensorSquare x y).vertices.length) ∧ (tensorSquare x y).vertices.Nodup ∧
      (∀ c ∈ (tensorSquare x y).cells, ∃ a b d, c = [a, b, d] ∧ area (pos (tensorSquare x y)) a b d < 0) ∧
        Conforming (pos (tensorSquare x y)) (tensorSquare x y).cells ∧
          Covers (pos (tensorSquare x y)) (tensorSquare x y).cells (Between [first x, first y] [last x, last y]) := by
  have hg := grid_tensor x y
  refine ⟨?_, tensor_nodup (incr_nodup hx.1) (incr_nodup hy.1), fun c hc => tensor_area hg hy.1 hx.1 hc, conforming2 hg hy.1 hx.1 false, fun p => ?_⟩
  · intro c hc v hv
    show v < (x.flatMap fun a => y.map fun b => [a, b]).length
    rw [length_flatMap_const y.length _ (fun _ => by simp)]
    exact gridCells_valid hc hv
  · rw [between_two]
    refine Iff.trans ?_ (covers2 hg (by decide) hy.1 hx.1 hy.2 hx.2 false).symm
    constructor
    · rintro ⟨h0, h1, h2⟩; exact ⟨h1, h0, fun k a b => h2 k b a⟩
    · rintro ⟨h0, h1, h2⟩; exact ⟨h1, h0, fun k a b => h2 k b a⟩

/-- **Defect.**  No such mesh is a mesh of counterclockwise triangles. -/
theorem tensor_fails {x y : List K} (hx : Lines x) (hy : Lines y) (D : (Nat → K) → Prop) : ¬ Triangles (tensorSquare x y) D := by
  intro h
  have hm : [0 * y.length + 0, 0 * y.length + 0 + 1, (0 + 1) * y.length + 0 + 1] ∈ (tensorSquare x y).cells :=
    mem_gridCells.2 ⟨0, 0, hx.2, hy.2, List.mem_cons_self⟩
  obtain ⟨a, b, d, e, h1⟩ := h.oriented _ hm
  obtain ⟨a', b', d', e', h2⟩ := (tensor_partial hx hy).2.2.1 _ hm
  rw [e] at e'
  simp only [List.cons.injEq, and_true] at e'
  obtain ⟨rfl, rfl, rfl⟩ := e'
  linarith

/-- **Boxes.**  The mesh of `box` for increasing coordinates is a triangulation of the box. -/
theorem bricks {x y z : List K} (hx : Lines x) (hy : Lines y) (hz : Lines z) :
    Tetrahedra (boxOf x y z) (Between [first x, first y, first z] [last x, last y, last z]) ∧
      (∀ q, q ∈ (boxOf x y z).vertices ↔ ∃ a ∈ x, ∃ b ∈ y, ∃ c ∈ z, q = [a, b, c]) ∧
        (boxOf x y z).cells.length = 6 * (x.length - 1) * (y.length - 1) * (z.length - 1) := by
  have hg := grid_box x y z
  refine ⟨⟨?_, box_nodup (incr_nodup hx.1) (incr_nodup hy.1) (incr_nodup hz.1), fun c hc => brick_volume hg hx.1 hy.1 hz.1 hc,
    conforming3 hg hx.1 hy.1 hz.1, fun p => ?_⟩, ?_, ?_⟩
  · intro cell hc v hv
    have hl : (boxOf x y z).vertices.length = z.length * (y.length * x.length) :=
      length_flatMap_const _ _ (fun _ => length_flatMap_const x.length _ (fun _ => by simp) y) z
    rw [hl]
    obtain ⟨kx, ky, kz, h1, h2, h3, hm⟩ := mem_boxOf.1 hc
    have key : ∀ {a b c : Nat}, a < x.length → b < y.length → c < z.length → vertexNo x.length y.length a b c < z.length * (y.length * x.length) := by
      intro a b c ha hb hc
      unfold vertexNo
      rw [show y.length * x.length * c + x.length * b + a = c * (y.length * x.length) + (b * x.length + a) by ring]
      exact number_lt (number_lt ha hb) hc
    have h1' : kx < x.length := by omega
    have h2' : ky < y.length := by omega
    have h3' : kz < z.length := by omega
    simp only [brickCells, boxCells, List.mem_cons, List.not_mem_nil, or_false] at hm
    rcases hm with rfl | rfl | rfl | rfl | rfl | rfl <;> simp only [List.mem_cons, List.not_mem_nil, or_false] at hv <;>
      rcases hv with rfl | rfl | rfl | rfl <;> exact key (by assumption) (by assumption) (by assumption)
  · rw [between_three]
    exact (covers3 hg hx.1 hy.1 hz.1 hx.2 hy.2 hz.2).symm
  · intro q
    simp only [boxOf, List.mem_flatMap, List.mem_map]
    constructor
    · rintro ⟨c, hc, b, hb, a, ha, rfl⟩; exact ⟨a, ha, b, hb, c, hc, rfl⟩
    · rintro ⟨a, ha, b, hb, c, hc, rfl⟩; exact ⟨c, hc, b, hb, a, ha, rfl⟩
  · unfold boxOf
    dsimp only
    rw [length_flatMap_const ((y.length - 1) * ((x.length - 1) * 6)) _ (fun kz =>
      (length_flatMap_const ((x.length - 1) * 6) _ (fun ky => (length_flatMap_const 6 _ (fun kx => rfl) _).trans (by rw [List.length_range])) _).trans
        (by rw [List.length_range])), List.length_range]
    ring

theorem box_mesh {ax ay az bx bY bz : K} (hx : ax < bx) (hy : ay < bY) (hz : az < bz) {Nx Ny Nz : Nat} (nx : 2 ≤ Nx) (ny : 2 ≤ Ny) (nz : 2 ≤ Nz) :
    Tetrahedra (box ax ay az bx bY bz Nx Ny Nz) (Between [ax, ay, az] [bx, bY, bz]) := by
  have t := (bricks (linspace_lines hx nx) (linspace_lines hy ny) (linspace_lines hz nz)).1
  rw [first_linspace _ _ nx, first_linspace _ _ ny, first_linspace _ _ nz, last_linspace _ _ nx, last_linspace _ _ ny, last_linspace _ _ nz] at t
  exact t

/-- **Boxes with interactions.**  The mesh covers the box and its surroundings, neighbouring grid lines are at most the horizon apart, and there are at
least as many grid lines in the first direction as the ratio of the lengths asks for. -/
theorem box_interactions_partial [FloorRing K] {horizon ax ay az bx bY bz : K} (hh : 0 < horizon) (hx : ax < bx) (hy : ay < bY) (hz : az < bz) (Nx Ny Nz : Nat) :
    Tetrahedra (boxWithInteractions horizon ax ay az bx bY bz Nx Ny Nz)
        (Between [ax - horizon, ay - horizon, az - horizon] [bx + horizon, bY + horizon, bz + horizon]) ∧
      ∃ x y z : List K, boxWithInteractions horizon ax ay az bx bY bz Nx Ny Nz = boxOf x y z ∧
        (∀ l ∈ [x, y, z], ∀ i, i + 1 < l.length → l.getD (i + 1) 0 - l.getD i 0 ≤ horizon) ∧ (bx - ax + 2 * horizon) / (bx - ax) * Nx ≤ x.length := by
  have key : ∀ {a b : K} (n : Nat), a < b → ((b - a + 2 * horizon) / horizon + 1 ≤ (interactionPoints horizon a b n : K) ∧ 2 ≤ interactionPoints horizon a b n ∧
      (b - a + 2 * horizon) / (b - a) * n ≤ (interactionPoints horizon a b n : K)) := by
    intro a b n hab
    have c1 : (b - a + 2 * horizon) / horizon ≤ (⌈(b - a + 2 * horizon) / horizon⌉ : K) := Int.le_ceil _
    have c2 : (b - a + 2 * horizon) / (b - a) * n ≤ (⌈(b - a + 2 * horizon) / (b - a) * (n : K)⌉ : K) := Int.le_ceil _
    have hpos : 0 < (b - a + 2 * horizon) / horizon := div_pos (by linarith) hh
    have c3 : 0 < ⌈(b - a + 2 * horizon) / horizon⌉ := Int.ceil_pos.2 hpos
    have e : ((interactionPoints horizon a b n : Nat) : ℤ) =
        max (⌈(b - a + 2 * horizon) / horizon⌉ + 1) ⌈(b - a + 2 * horizon) / (b - a) * (n : K)⌉ := by
      unfold interactionPoints
      exact Int.toNat_of_nonneg (le_trans (by omega) (le_max_left _ _))
    have e1 : ⌈(b - a + 2 * horizon) / horizon⌉ + 1 ≤ ((interactionPoints horizon a b n : Nat) : ℤ) := by rw [e]; exact le_max_left _ _
    have e2 : ⌈(b - a + 2 * horizon) / (b - a) * (n : K)⌉ ≤ ((interactionPoints horizon a b n : Nat) : ℤ) := by rw [e]; exact le_max_right _ _
    have f1 : ((⌈(b - a + 2 * horizon) / horizon⌉ + 1 : ℤ) : K) ≤ ((interactionPoints horizon a b n : Nat) : K) := by exact_mod_cast e1
    have f2 : ((⌈(b - a + 2 * horizon) / (b - a) * (n : K)⌉ : ℤ) : K) ≤ ((interactionPoints horizon a b n : Nat) : K) := by exact_mod_cast e2
    push_cast at f1
    exact ⟨by linarith, by omega, by linarith⟩
  have width : ∀ {a b : K} (n : Nat), a < b → ∀ i, i + 1 < (linspace (a - horizon) (b + horizon) (interactionPoints horizon a b n)).length →
      (linspace (a - horizon) (b + horizon) (interactionPoints horizon a b n)).getD (i + 1) 0 -
        (linspace (a - horizon) (b + horizon) (interactionPoints horizon a b n)).getD i 0 ≤ horizon := by
    intro a b n hab i hi
    rw [linspace_length] at hi
    rw [linspace_get _ _ hi, linspace_get _ _ (by omega)]
    obtain ⟨k1, k2, -⟩ := key n hab
    have h2 : (2 : K) ≤ (interactionPoints horizon a b n : K) := by exact_mod_cast k2
    push_cast
    have : (b + horizon - (a - horizon)) / ((interactionPoints horizon a b n : K) - 1) ≤ horizon := by
      rw [div_le_iff₀ (by linarith)]
      have k3 : (b - a + 2 * horizon) / horizon ≤ (interactionPoints horizon a b n : K) - 1 := by linarith
      rw [div_le_iff₀ hh] at k3
      linarith
    linarith
  refine ⟨box_mesh (by linarith) (by linarith) (by linarith) (key Nx hx).2.1 (key Nx hy).2.1 (key Nx hz).2.1, _, _, _, rfl, ?_, ?_⟩
  · intro l hl
    simp only [List.mem_cons, List.not_mem_nil, or_false] at hl
    rcases hl with rfl | rfl | rfl
    · exact width Nx hx
    · exact width Nx hy
    · exact width Nx hz
  · rw [linspace_length]
    exact (key Nx hx).2.2

/-- **Defect.**  The numbers of points asked for in the other directions are not used: with 100 points asked for in the second direction the mesh of the
unit box with horizon one has `6 * 6 * 6` vertices, while `6 * 300 * 6` are due. -/
theorem box_interactions_fails :
    (∀ (horizon ax ay az bx bY bz : ℚ) (Nx Ny Nz Ny' Nz' : Nat),
      boxWithInteractions horizon ax ay az bx bY bz Nx Ny Nz = boxWithInteractions horizon ax ay az bx bY bz Nx Ny' Nz') ∧
      (boxWithInteractions (K := ℚ) 1 0 0 0 1 1 1 2 100 2).vertices.length = 6 * 6 * 6 ∧ interactionPoints (K := ℚ) 1 0 1 100 = 300 := by
  refine ⟨fun _ _ _ _ _ _ _ _ _ _ _ _ => rfl, ?_, by decide +kernel⟩
  have h6 : interactionPoints (K := ℚ) 1 0 1 2 = 6 := by decide +kernel
  unfold boxWithInteractions box
  rw [h6]
  decide +kernel

/-- The vertices of the L-shaped mesh among the points of the grid. -/
def lNumber (v : Nat) : Nat := [0, 1, 2, 5, 4, 3, 6, 7].getD v 0

/-- **L-shaped domain.** -/
theorem lshape : Triangles (simpleLshape (K := K)) fun p => Between [0, 0] [2, 2] p ∧ ¬ (1 < p 0 ∧ 1 < p 1) := by
  let l : List K := [0, 1, 2]
  have hl : Incr l := by simp [Incr, l]
  have hg := grid_meshgrid l l (gridCells false 3 3)
  have hX : ∀ v, v < 8 → ∀ k, coord (simpleLshape (K := K)) v k = coord ⟨meshgrid l l, gridCells false 3 3⟩ (lNumber v) k := by
    intro v hv k
    interval_cases v <;> rfl
  have hn : ∀ c ∈ (simpleLshape (K := K)).cells, ∀ v ∈ c, v < 8 := by
    show ∀ c ∈ [[0, 1, 4], [0, 4, 5], [1, 2, 3], [1, 3, 4], [5, 4, 7], [5, 7, 6]], ∀ v ∈ c, v < 8
    decide
  have hin : ∀ c ∈ (simpleLshape (K := K)).cells, ∃ b ∈ [(0, 0), (0, 1), (1, 0)], c.map lNumber ∈ squareCells false 3 b.1 b.2 := by
    show ∀ c ∈ [[0, 1, 4], [0, 4, 5], [1, 2, 3], [1, 3, 4], [5, 4, 7], [5, 7, 6]], ∃ b ∈ [(0, 0), (0, 1), (1, 0)], c.map lNumber ∈ squareCells false 3 b.1 b.2
    decide
  have hout : ∀ b ∈ [(0, 0), (0, 1), (1, 0)], ∀ c ∈ squareCells false 3 b.1 b.2, ∃ c' ∈ (simpleLshape (K := K)).cells, c'.map lNumber = c := by
    show ∀ b ∈ [(0, 0), (0, 1), (1, 0)], ∀ c ∈ squareCells false 3 b.1 b.2, ∃ c' ∈ [[0, 1, 4], [0, 4, 5], [1, 2, 3], [1, 3, 4], [5, 4, 7], [5, 7, 6]], c'.map lNumber = c
    decide
  have hlen : l.length = 3 := rfl
  refine ⟨hn, ?_, ?_, ?_, ?_⟩
  · simp [simpleLshape]
  · intro c hc
    simp only [simpleLshape, List.mem_cons, List.not_mem_nil, or_false] at hc
    rcases hc with rfl | rfl | rfl | rfl | rfl | rfl <;> refine ⟨_, _, _, rfl, ?_⟩ <;> norm_num [area, simpleLshape]
  · refine conforming_sub lNumber 8 hn hX (by decide) ?_ (conforming2 hg hl hl false)
    intro c hc
    obtain ⟨b, hb, hm⟩ := hin c hc
    refine mem_gridCells.2 ⟨b.1, b.2, ?_, ?_, hm⟩
    · simp only [List.mem_cons, List.not_mem_nil, or_false] at hb
      rcases hb with rfl | rfl | rfl <;> simp [l]
    · simp only [List.mem_cons, List.not_mem_nil, or_false] at hb
      rcases hb with rfl | rfl | rfl <;> simp [l]
  · intro p
    show (Between [0, 0] [2, 2] p ∧ ¬ (1 < p 0 ∧ 1 < p 1)) ↔ _
    rw [between_two]
    constructor
    · rintro ⟨⟨⟨x0, x1⟩, ⟨y0, y1⟩, hk⟩, hno⟩
      have key : ∀ (i j : Nat) (s t : K), (i, j) ∈ [(0, 0), (0, 1), (1, 0)] → 0 ≤ s → s ≤ 1 → 0 ≤ t → t ≤ 1 → p 0 = l.getD j 0 + s * (l.getD (j + 1) 0 - l.getD j 0) →
          p 1 = l.getD i 0 + t * (l.getD (i + 1) 0 - l.getD i 0) → ∃ c ∈ (simpleLshape (K := K)).cells, Refine.InSimplex (0 ≤ ·) (pos simpleLshape) c p := by
        intro i j s t hb s0 s1 t0 t1 e0 e1
        have hi : i + 1 < l.length := by
          simp only [List.mem_cons, List.not_mem_nil, or_false, Prod.mk.injEq] at hb
          rw [hlen]; omega
        have hj : j + 1 < l.length := by
          simp only [List.mem_cons, List.not_mem_nil, or_false, Prod.mk.injEq] at hb
          rw [hlen]; omega
        obtain ⟨c, hc, w, hw, A⟩ := exists_at hg false hi hj s0 s1 t0 t1
        obtain ⟨c', hc', rfl⟩ := hout (i, j) hb c hc
        refine ⟨c', hc', (inSimplex_map lNumber fun v hv => hX v (hn c' hc' v hv)).1 ⟨w, hw.1, hw.2, fun k => ?_⟩⟩
        rcases k with _ | _ | k
        · exact A.pd.trans e0.symm
        · exact A.pe.trans e1.symm
        · rw [hk _ (by omega) (by omega)]
          exact Finset.sum_eq_zero fun i _ => by rw [hg.rest _ _ (by omega) (by omega), mul_zero]
      rcases le_total (p 0) 1 with a | a
      · rcases le_total (p 1) 1 with b | b
        · exact key 0 0 (p 0) (p 1) (by simp) x0 a y0 b (by simp [l]) (by simp [l])
        · exact key 1 0 (p 0) (p 1 - 1) (by simp) x0 a (by linarith) (by linarith) (by simp [l]) (by norm_num [l])
      · rcases le_or_gt (p 1) 1 with b | b
        · exact key 0 1 (p 0 - 1) (p 1) (by simp) (by linarith) (by linarith) y0 b (by norm_num [l]) (by simp [l])
        · have a' : p 0 = 1 := le_antisymm (not_lt.1 fun h => hno ⟨h, b⟩) a
          exact key 1 0 (p 0) (p 1 - 1) (by simp) x0 a'.le (by linarith) (by linarith) (by simp [l]) (by norm_num [l])
    · rintro ⟨c, hc, h⟩
      obtain ⟨b, hb, hm⟩ := hin c hc
      obtain ⟨w, hw0, hw1, hp⟩ := (inSimplex_map lNumber fun v hv => hX v (hn c hc v hv)).2 h
      have hb' : (b.1 = 0 ∧ b.2 = 0) ∨ (b.1 = 0 ∧ b.2 = 1) ∨ (b.1 = 1 ∧ b.2 = 0) := by
        simp only [List.mem_cons, List.not_mem_nil, or_false] at hb
        rcases hb with rfl | rfl | rfl <;> simp
      obtain ⟨s, t, A⟩ := cell_at hg (show b.1 + 1 < l.length by rw [hlen]; omega) (show b.2 + 1 < l.length by rw [hlen]; omega) hm ⟨hw0, hw1⟩
      have e0 : p 0 = l.getD b.2 0 + s * (l.getD (b.2 + 1) 0 - l.getD b.2 0) := (hp 0).symm.trans A.pd
      have e1 : p 1 = l.getD b.1 0 + t * (l.getD (b.1 + 1) 0 - l.getD b.1 0) := (hp 1).symm.trans A.pe
      have hk : ∀ k, k ≠ 0 → k ≠ 1 → p k = 0 := fun k h0 h1 => by
        rw [← hp k]
        exact Finset.sum_eq_zero fun i _ => by rw [hg.rest _ _ h0 h1, mul_zero]
      have s0 := A.s0
      have s1 := A.s1
      have t0 := A.t0
      have t1 := A.t1
      rcases hb' with ⟨b1, b2⟩ | ⟨b1, b2⟩ | ⟨b1, b2⟩ <;> rw [b1] at e1 <;> rw [b2] at e0 <;> norm_num [l] at e0 e1 <;>
        refine ⟨⟨⟨by linarith, by linarith⟩, ⟨by linarith, by linarith⟩, hk⟩, fun h => ?_⟩ <;> linarith [h.1, h.2]

/-- A mesh whose cells are, up to the numbering `ρ` of the vertices, the cells of the bricks `B` of a grid. -/
theorem bricks_sub {l : List K} (hl : Incr l) {m : Mesh K} (ρ : Nat → Nat) (n : Nat) (B : List (Nat × Nat × Nat)) (hn : ∀ c ∈ m.cells, ∀ v ∈ c, v < n)
    (hX : ∀ v, v < n → ∀ k, coord m v k = coord (boxOf l l l) (ρ v) k) (inj : ∀ v, v < n → ∀ v', v' < n → ρ v = ρ v' → v = v')
    (hB : ∀ b ∈ B, b.1 + 1 < l.length ∧ b.2.1 + 1 < l.length ∧ b.2.2 + 1 < l.length)
    (hin : ∀ c ∈ m.cells, ∃ b ∈ B, c.map ρ ∈ brickCells l.length l.length b.1 b.2.1 b.2.2)
    (hout : ∀ b ∈ B, ∀ c ∈ brickCells l.length l.length b.1 b.2.1 b.2.2, ∃ c' ∈ m.cells, c'.map ρ = c) :
    Conforming (pos m) m.cells ∧ ∀ p, (∃ c ∈ m.cells, Refine.InSimplex (0 ≤ ·) (pos m) c p) ↔
      ∃ b ∈ B, (l.getD b.1 0 ≤ p 0 ∧ p 0 ≤ l.getD (b.1 + 1) 0) ∧ (l.getD b.2.1 0 ≤ p 1 ∧ p 1 ≤ l.getD (b.2.1 + 1) 0) ∧
        (l.getD b.2.2 0 ≤ p 2 ∧ p 2 ≤ l.getD (b.2.2 + 1) 0) ∧ ∀ k, 3 ≤ k → p k = 0 := by
  have hg := grid_box l l l
  refine ⟨conforming_sub ρ n hn hX inj (fun c hc => ?_) (conforming3 hg hl hl hl), fun p => ⟨?_, ?_⟩⟩
  · obtain ⟨b, hb, hm⟩ := hin c hc
    exact mem_boxOf.2 ⟨b.1, b.2.1, b.2.2, (hB b hb).1, (hB b hb).2.1, (hB b hb).2.2, hm⟩
  · rintro ⟨c, hc, h⟩
    obtain ⟨b, hb, hm⟩ := hin c hc
    obtain ⟨w, hw0, hw1, hp⟩ := (inSimplex_map ρ fun v hv => hX v (hn c hc v hv)).2 h
    obtain ⟨b1, b2, b3⟩ := hB b hb
    obtain ⟨s, t, r, A⟩ := brick_at hg b1 b2 b3 hm ⟨hw0, hw1⟩
    have key : ∀ {i : Nat} {s q : K}, i + 1 < l.length → 0 ≤ s → s ≤ 1 → q = l.getD i 0 + s * (l.getD (i + 1) 0 - l.getD i 0) →
        l.getD i 0 ≤ q ∧ q ≤ l.getD (i + 1) 0 := by
      intro i s q hi s0 s1 e
      have := hl.lt (Nat.lt_succ_self i) hi
      rw [e]
      constructor <;> nlinarith
    refine ⟨b, hb, key b1 A.s0 A.s1 ((hp 0).symm.trans A.p0), key b2 A.t0 A.t1 ((hp 1).symm.trans A.p1), key b3 A.r0 A.r1 ((hp 2).symm.trans A.p2), fun k hk => ?_⟩
    rw [← hp k]
    exact Finset.sum_eq_zero fun i _ => by rw [hg.rest _ _ hk, mul_zero]
  · rintro ⟨b, hb, ⟨x0, x1⟩, ⟨y0, y1⟩, ⟨z0, z1⟩, hk⟩
    obtain ⟨b1, b2, b3⟩ := hB b hb
    have key : ∀ {i : Nat} {q : K}, i + 1 < l.length → l.getD i 0 ≤ q → q ≤ l.getD (i + 1) 0 →
        ∃ s, 0 ≤ s ∧ s ≤ 1 ∧ q = l.getD i 0 + s * (l.getD (i + 1) 0 - l.getD i 0) := by
      intro i q hi q0 q1
      have hlt := hl.lt (Nat.lt_succ_self i) hi
      have hpos : 0 < l.getD (i + 1) 0 - l.getD i 0 := by linarith
      refine ⟨(q - l.getD i 0) / (l.getD (i + 1) 0 - l.getD i 0), div_nonneg (by linarith) hpos.le, ?_, ?_⟩
      · rw [div_le_one hpos]; linarith
      · rw [div_mul_cancel₀ _ hpos.ne']; ring
    obtain ⟨s, s0, s1, es⟩ := key b1 x0 x1
    obtain ⟨t, t0, t1, et⟩ := key b2 y0 y1
    obtain ⟨r, r0, r1, er⟩ := key b3 z0 z1
    obtain ⟨c, hc, w, hw, A⟩ := exists_brick hg b1 b2 b3 s0 s1 t0 t1 r0 r1
    obtain ⟨c', hc', rfl⟩ := hout b hb c hc
    refine ⟨c', hc', (inSimplex_map ρ fun v hv => hX v (hn c' hc' v hv)).1 ⟨w, hw.1, hw.2, fun k => ?_⟩⟩
    rcases k with _ | _ | _ | k
    · exact A.p0.trans es.symm
    · exact A.p1.trans et.symm
    · exact A.p2.trans er.symm
    · rw [hk _ (by omega)]
      exact Finset.sum_eq_zero fun i _ => by rw [hg.rest _ _ (by omega), mul_zero]

/-- The vertices of the simple meshes of boxes among the points of the grid. -/
def cubeNumber (v : Nat) : Nat := [0, 1, 3, 2, 4, 5, 7, 6].getD v 0
def ficheraNumber (v : Nat) : Nat :=
  [0, 1, 4, 3, 9, 10, 13, 12, 2, 5, 11, 14, 18, 19, 22, 21, 6, 7, 8, 17, 16, 15, 26, 25, 24, 23].getD v 0

/-- **Unit box.** -/
theorem simple_box : Tetrahedra (simpleBox (K := K)) (Between [0, 0, 0] [1, 1, 1]) := by
  let l : List K := [0, 1]
  have hl : Incr l := by simp [Incr, l]
  have hn : ∀ c ∈ (simpleBox (K := K)).cells, ∀ v ∈ c, v < 8 := by
    show ∀ c ∈ [[0, 1, 6, 5], [0, 1, 2, 6], [0, 4, 5, 6], [0, 4, 6, 7], [0, 2, 3, 6], [0, 3, 7, 6]], ∀ v ∈ c, v < 8
    decide
  have key := bricks_sub (l := l) hl (m := simpleBox) cubeNumber 8 [(0, 0, 0)] hn (fun v hv k => by interval_cases v <;> rfl) (by decide) (by simp [l])
    (by
      show ∀ c ∈ [[0, 1, 6, 5], [0, 1, 2, 6], [0, 4, 5, 6], [0, 4, 6, 7], [0, 2, 3, 6], [0, 3, 7, 6]], ∃ b ∈ [(0, 0, 0)],
        c.map cubeNumber ∈ brickCells 2 2 b.1 b.2.1 b.2.2
      decide)
    (by
      show ∀ b ∈ [(0, 0, 0)], ∀ c ∈ brickCells 2 2 b.1 b.2.1 b.2.2, ∃ c' ∈ [[0, 1, 6, 5], [0, 1, 2, 6], [0, 4, 5, 6], [0, 4, 6, 7], [0, 2, 3, 6], [0, 3, 7, 6]],
        c'.map cubeNumber = c
      decide)
  refine ⟨hn, by simp [simpleBox], ?_, key.1, fun p => ?_⟩
  · intro c hc
    simp only [simpleBox, List.mem_cons, List.not_mem_nil, or_false] at hc
    rcases hc with rfl | rfl | rfl | rfl | rfl | rfl <;> refine ⟨_, _, _, _, rfl, ?_⟩ <;> norm_num [volume, simpleBox]
  · rw [between_three, key.2 p]
    simp [l]

/-- **Cube without an octant.** -/
theorem fichera : Tetrahedra (simpleFicheraCube (K := K)) fun p => Between [0, 0, 0] [2, 2, 2] p ∧ ¬ (1 < p 0 ∧ p 1 < 1 ∧ 1 < p 2) := by
  let l : List K := [0, 1, 2]
  have hl : Incr l := by simp [Incr, l]
  let B : List (Nat × Nat × Nat) := [(0, 0, 0), (1, 0, 0), (0, 0, 1), (0, 1, 0), (1, 1, 0), (0, 1, 1), (1, 1, 1)]
  have hcells : (simpleFicheraCube (K := K)).cells = (simpleFicheraCube (K := ℚ)).cells := rfl
  have hn : ∀ c ∈ (simpleFicheraCube (K := K)).cells, ∀ v ∈ c, v < 26 := by
    rw [hcells]
    decide +kernel
  have key := bricks_sub (l := l) hl (m := simpleFicheraCube) ficheraNumber 26 B hn (fun v hv k => by interval_cases v <;> rfl) (by decide +kernel)
    (by simp [l, B])
    (by
      rw [hcells]
      show ∀ c ∈ (simpleFicheraCube (K := ℚ)).cells, ∃ b ∈ B, c.map ficheraNumber ∈ brickCells 3 3 b.1 b.2.1 b.2.2
      decide +kernel)
    (by
      rw [hcells]
      show ∀ b ∈ B, ∀ c ∈ brickCells 3 3 b.1 b.2.1 b.2.2, ∃ c' ∈ (simpleFicheraCube (K := ℚ)).cells, c'.map ficheraNumber = c
      decide +kernel)
  refine ⟨hn, by simp [simpleFicheraCube], ?_, key.1, fun p => ?_⟩
  · intro c hc
    simp only [simpleFicheraCube, boxCells, List.cons_append, List.nil_append, List.mem_cons, List.not_mem_nil, or_false] at hc
    casesm* _ ∨ _ <;> subst_vars <;> refine ⟨_, _, _, _, rfl, ?_⟩ <;> norm_num [volume, simpleFicheraCube]
  · show (Between [0, 0, 0] [2, 2, 2] p ∧ ¬ (1 < p 0 ∧ p 1 < 1 ∧ 1 < p 2)) ↔ _
    rw [between_three, key.2 p]
    simp only [B, l, List.mem_cons, List.not_mem_nil, or_false, exists_eq_or_imp, exists_eq_left, List.getD_cons_zero, List.getD_cons_succ, Nat.zero_add]
    constructor
    · rintro ⟨⟨⟨x0, x1⟩, ⟨y0, y1⟩, ⟨z0, z1⟩, hk⟩, hno⟩
      rcases le_total (p 0) 1 with a | a <;> rcases le_total (p 1) 1 with b | b <;> rcases le_total (p 2) 1 with c | c
      · exact Or.inl ⟨⟨by linarith, by linarith⟩, ⟨by linarith, by linarith⟩, ⟨by linarith, by linarith⟩, hk⟩
      · exact Or.inr (Or.inr (Or.inl ⟨⟨by linarith, by linarith⟩, ⟨by linarith, by linarith⟩, ⟨by linarith, by linarith⟩, hk⟩))
      · exact Or.inr (Or.inr (Or.inr (Or.inl ⟨⟨by linarith, by linarith⟩, ⟨by linarith, by linarith⟩, ⟨by linarith, by linarith⟩, hk⟩)))
      · exact Or.inr (Or.inr (Or.inr (Or.inr (Or.inr (Or.inl ⟨⟨by linarith, by linarith⟩, ⟨by linarith, by linarith⟩, ⟨by linarith, by linarith⟩, hk⟩)))))
      · exact Or.inr (Or.inl ⟨⟨by linarith, by linarith⟩, ⟨by linarith, by linarith⟩, ⟨by linarith, by linarith⟩, hk⟩)
      · rcases eq_or_lt_of_le a with a' | a'
        · exact Or.inr (Or.inr (Or.inl ⟨⟨by linarith, by linarith⟩, ⟨by linarith, by linarith⟩, ⟨by linarith, by linarith⟩, hk⟩))
        · rcases eq_or_lt_of_le b with b' | b'
          · exact Or.inr (Or.inr (Or.inr (Or.inr (Or.inr (Or.inr (⟨⟨by linarith, by linarith⟩, ⟨by linarith, by linarith⟩, ⟨by linarith, by linarith⟩, hk⟩))))))
          · rcases eq_or_lt_of_le c with c' | c'
            · exact Or.inr (Or.inl ⟨⟨by linarith, by linarith⟩, ⟨by linarith, by linarith⟩, ⟨by linarith, by linarith⟩, hk⟩)
            · exact absurd ⟨a', b', c'⟩ hno
      · exact Or.inr (Or.inr (Or.inr (Or.inr (Or.inl ⟨⟨by linarith, by linarith⟩, ⟨by linarith, by linarith⟩, ⟨by linarith, by linarith⟩, hk⟩))))
      · exact Or.inr (Or.inr (Or.inr (Or.inr (Or.inr (Or.inr (⟨⟨by linarith, by linarith⟩, ⟨by linarith, by linarith⟩, ⟨by linarith, by linarith⟩, hk⟩))))))
    · rintro (⟨⟨x0, x1⟩, ⟨y0, y1⟩, ⟨z0, z1⟩, hk⟩ | ⟨⟨x0, x1⟩, ⟨y0, y1⟩, ⟨z0, z1⟩, hk⟩ | ⟨⟨x0, x1⟩, ⟨y0, y1⟩, ⟨z0, z1⟩, hk⟩ | ⟨⟨x0, x1⟩, ⟨y0, y1⟩, ⟨z0, z1⟩, hk⟩ | ⟨⟨x0, x1⟩, ⟨y0, y1⟩, ⟨z0, z1⟩, hk⟩ | ⟨⟨x0, x1⟩, ⟨y0, y1⟩, ⟨z0, z1⟩, hk⟩ | ⟨⟨x0, x1⟩, ⟨y0, y1⟩, ⟨z0, z1⟩, hk⟩) <;>
        refine ⟨⟨⟨by linarith, by linarith⟩, ⟨by linarith, by linarith⟩, ⟨by linarith, by linarith⟩, hk⟩, fun h => ?_⟩ <;> linarith [h.1, h.2.1, h.2.2]

/-! Cases. -/

/-- The lines of a grid that is not equidistant. -/
example : Lines ([0, 1, 3] : List ℚ) ∧ Lines ([0, 2, 5, 6] : List ℚ) := by
  unfold Lines
  decide +kernel

/-- A crossed mesh with its two kinds of squares. -/
theorem sample_case : ∃ m, uniformSquareOf (K := ℚ) (1 / 10 ^ 10) true [2] [1] [0, 1, 3] [0, 2] = some m ∧ m.vertices.length = 6 ∧
    m.cells = [[0, 1, 4], [0, 4, 3], [1, 2, 4], [2, 5, 4]] ∧ Triangles m (Between [0, 0] [3, 2]) := by
  refine ⟨⟨meshgrid [0, 1, 3] [0, 2], gridCells true 3 2⟩, by decide +kernel, by decide +kernel, by decide +kernel, ?_⟩
  have hx : Lines ([0, 1, 3] : List ℚ) := by unfold Lines; decide +kernel
  have hy : Lines ([0, 2] : List ℚ) := by unfold Lines; decide +kernel
  exact (square (eps := 1 / 10 ^ 10) (crossed := true) (linesH := [2]) (linesV := [1]) (by decide +kernel) hx hy).1

/-- The mesh `crossSquare()` with a rounding function. -/
example : (uniformSquare (K := ℚ) (fun q => ⌊q + 1 / 2⌋) (1 / 10 ^ 10) 3 none 0 0 1 1 true [] []).isSome = true :=
  (uniform_square _ _ 3 none (by norm_num) (by norm_num) true).1 (by omega) (by simp)

example : (boxWithInteractions (K := ℚ) 1 0 0 0 1 1 1 2 2 2).cells.length = 6 * 5 * 5 * 5 := by
  have h6 : interactionPoints (K := ℚ) 1 0 1 2 = 6 := by decide +kernel
  have hb : boxWithInteractions (K := ℚ) 1 0 0 0 1 1 1 2 2 2 = boxOf (linspace (-1) 2 6) (linspace (-1) 2 6) (linspace (-1) 2 6) := by
    unfold boxWithInteractions box
    rw [h6]
    norm_num
  have hl := linspace_lines (K := ℚ) (show (-1 : ℚ) < 2 by norm_num) (show 2 ≤ 6 by norm_num)
  rw [hb, (bricks hl hl hl).2.2, linspace_length]

end PyNucleus.Props.C86
