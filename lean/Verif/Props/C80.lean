import Mathlib.Algebra.BigOperators.Ring.Finset
import Mathlib.Algebra.Order.BigOperators.Group.List
import Mathlib.Data.Rat.Floor
import Mathlib.Tactic.NormNum
import Verif.Proof.CellFinder
import Verif.Props.C47

/-!
# C80 Finding the cell of a point

Full statement: the finder can be set up for every mesh; for every point of the mesh it returns a cell that contains the point,
together with the barycentric coordinates of the point; for all other points it returns −1.

Proved: the returned cell and coordinates are right up to the tolerance of the code (`sound`), −1 is returned only if no cell near
the box of the point contains it (`notfound`), and for meshes of an interval of length at least 1/2 every point is found
(`complete_line_partial`) unless it is in the last, empty box. The rest fails, see the end of the file.
-/

namespace PyNucleus.Props.C80

open PyNucleus.CellFinder PyNucleus.Props.C47 PyNucleus.BarycentricCoords

variable {K : Type} [Field K] [LinearOrder K] [IsStrictOrderedRing K] [FloorRing K]

omit [FloorRing K] in
theorem bary_spec {m : Mesh K} (hm : Valid m) {c : Nat} (hc : c < m.numCells) (x : Nat → K) :
    IsBary m.dim m.dim (m.simplex c) x (m.bary c x) ∧ ∀ b, IsBary m.dim m.dim (m.simplex c) x b → b = m.bary c x := by
  unfold Mesh.bary
  rcases hm.dim with hd | hd
  · rw [if_pos hd, hd]
    exact segment_line _ x (hm.line hd c hc)
  · rw [if_neg (by omega), hd]
    exact triangle_plane _ x (hm.plane hd c hc)

omit [FloorRing K] in
theorem inCell_iff {m : Mesh K} (hm : Valid m) {c : Nat} (hc : c < m.numCells) (x : Nat → K) (tol : K) :
    m.inCell c x tol = true ↔ NearCell tol m.dim m.dim (m.simplex c) x := by
  obtain ⟨h1, h2⟩ := bary_spec hm hc x
  have e : m.inCell c x tol = true ↔ ∀ b ∈ m.bary c x, -tol ≤ b := by simp [Mesh.inCell]
  rw [e]
  constructor
  · exact fun h => ⟨_, h1, h⟩
  · rintro ⟨b, h3, h4⟩
    rwa [← h2 b h3]

omit [FloorRing K] [IsStrictOrderedRing K] in
theorem nearCell_zero (d n : Nat) (s : Nat → Nat → K) (x : Nat → K) : NearCell 0 d n s x ↔ InCell d n s x := by
  simp [NearCell, InCell]

/-! ### Setting up -/

/-- The finder can be set up if no more than 255 boxes with the same first number are occupied. -/
theorem build_partial {m : Mesh K} (hm : Valid m) (hfit : ∀ L, KeysFit m L) :
    ∃ n, ∀ fuel, n ≤ fuel → ∃ f, build m fuel = some f ∧ f.mesh = m := by
  obtain ⟨n, hn⟩ := doubling_total hm.h
  refine ⟨n, fun fuel hf => ?_⟩
  obtain ⟨L, hL⟩ := hn fuel hf
  obtain ⟨f, map, h1, _, h2⟩ := build_spec hm hL (hfit L)
  exact ⟨f, h1, h2.mesh⟩

omit [IsStrictOrderedRing K] in
/-- In one dimension there is only one box per first number. -/
theorem fit_line {m : Mesh K} (hd : m.dim = 1) (L : Nat) : KeysFit m L := by
  intro I l hl hmem
  have hz : ∀ k ∈ l, k = (0, 0) := by
    intro k hk
    obtain ⟨c, _, he⟩ := hmem k hk
    have := (Prod.mk.inj he).2
    rw [← this, coord_ge m L _ (by omega), coord_ge m L _ (by omega)]
  have := (List.Nodup.subperm hl (l₂ := [(0, 0)]) fun k hk => by rw [hz k hk]; exact List.mem_cons_self).length_le
  simp only [List.length_cons, List.length_nil] at this
  omega

theorem build_line {m : Mesh K} (hm : Valid m) (hd : m.dim = 1) :
    ∃ n, ∀ fuel, n ≤ fuel → ∃ f, build m fuel = some f ∧ f.mesh = m := build_partial hm (fit_line hd)

/-! ### Searching -/

variable {m : Mesh K} {fuel : Nat} {f : Finder K} {order : List Nat → List Nat}

/-- A returned cell is a cell of the mesh, the point is in it up to the tolerance, and the coordinates are those of the point. -/
theorem sound (hm : Valid m) (hfit : ∀ L, KeysFit m L) (hf : build m fuel = some f) (hord : ∀ l, (order l).Perm l) {x : Nat → K}
    {c : Nat} {b : List K} (hr : findCell order f x = some (some (c, b))) :
    c < m.numCells ∧ IsBary m.dim m.dim (m.simplex c) x b ∧ ∀ a ∈ b, -(1 / 10 ^ 15) ≤ a := by
  obtain ⟨map, hb⟩ := built_of_build hm hf fun L _ => hfit L
  cases hc : candidates f x with
  | none => unfold findCell at hr; rw [hc] at hr; cases hr
  | some cand =>
    rcases findCell_spec hm hb hord hc with ⟨c', h1, h2, h3⟩ | ⟨h1, _⟩
    · rw [hr] at h1
      cases h1
      obtain ⟨g1, _⟩ := bary_spec hm h2.1 x
      refine ⟨h2.1, g1, fun a ha => ?_⟩
      rcases h3 with h3 | ⟨h3, _⟩
      · have : ∀ b ∈ m.bary c x, -0 ≤ b := by simpa [Mesh.inCell] using h3
        have h4 := this a ha
        rw [neg_zero] at h4
        refine le_trans ?_ h4
        rw [neg_nonpos]
        positivity
      · have : ∀ b ∈ m.bary c x, -(1 / 10 ^ 15) ≤ b := by simpa [Mesh.inCell] using h3
        exact this a ha
    · rw [hr] at h1
      cases h1

/-- The search does not fail for points of the bounding box whose box is occupied, or which are not in the first or last slice. -/
theorem safe_partial (hm : Valid m) (hfit : ∀ L, KeysFit m L) (hf : build m fuel = some f) (hord : ∀ l, (order l).Perm l) {x : Nat → K}
    (hx : InBox m x) (hs : SafeKey m f.L x) : findCell order f x ≠ none := by
  obtain ⟨map, hb⟩ := built_of_build hm hf fun L _ => hfit L
  obtain ⟨cand, hc⟩ := candidates_total hm hb hx hs
  rcases findCell_spec hm hb hord hc with ⟨c', h1, _⟩ | ⟨h1, _⟩ <;> rw [h1] <;> simp

/-- If −1 is returned, the point is in no cell that has its centre close to the point, and in none of the neighbours of those. -/
theorem notfound (hm : Valid m) (hfit : ∀ L, KeysFit m L) (hf : build m fuel = some f) (hord : ∀ l, (order l).Perm l) {x : Nat → K}
    (hr : findCell order f x = some none) {c : Nat} (hc : Tried m f.L x c) :
    ¬NearCell (1 / 10 ^ 15) m.dim m.dim (m.simplex c) x := by
  obtain ⟨map, hb⟩ := built_of_build hm hf fun L _ => hfit L
  cases hca : candidates f x with
  | none => unfold findCell at hr; rw [hca] at hr; cases hr
  | some cand =>
    rcases findCell_spec hm hb hord hca with ⟨c', h1, _⟩ | ⟨_, h2⟩
    · rw [hr] at h1; cases h1
    · rw [← inCell_iff hm hc.1, (h2 c hc).2]
      simp

/-- If one of these cells contains the point, then a cell that contains the point is returned. -/
theorem exact_partial (hm : Valid m) (hfit : ∀ L, KeysFit m L) (hf : build m fuel = some f) (hord : ∀ l, (order l).Perm l) {x : Nat → K}
    (hx : InBox m x) (hs : SafeKey m f.L x) {c : Nat} (hc : Tried m f.L x c) (hin : InCell m.dim m.dim (m.simplex c) x) :
    ∃ c' b, findCell order f x = some (some (c', b)) ∧ c' < m.numCells ∧ IsBary m.dim m.dim (m.simplex c') x b ∧ ∀ a ∈ b, 0 ≤ a := by
  obtain ⟨map, hb⟩ := built_of_build hm hf fun L _ => hfit L
  obtain ⟨cand, hca⟩ := candidates_total hm hb hx hs
  have hin' : m.inCell c x 0 = true := (inCell_iff hm hc.1 x 0).mpr ((nearCell_zero _ _ _ _).mpr hin)
  rcases findCell_spec hm hb hord hca with ⟨c', h1, h2, h3⟩ | ⟨_, h2⟩
  · refine ⟨c', _, h1, h2.1, (bary_spec hm h2.1 x).1, ?_⟩
    rcases h3 with h3 | ⟨_, h3⟩
    · simpa [Mesh.inCell] using h3
    · rw [h3 c hc] at hin'
      cases hin'
  · rw [(h2 c hc).1] at hin'
    cases hin'

/-! ### Meshes of an interval -/

/-- Position of a cell in a chain of vertices. -/
def CellAt (m : Mesh K) (p : Nat → Nat) (c i : Nat) : Prop :=
  (m.cells c 0 = p i ∧ m.cells c 1 = p (i + 1)) ∨ (m.cells c 0 = p (i + 1) ∧ m.cells c 1 = p i)

/-- The cells of the mesh join consecutive vertices, in any order and direction. -/
structure Chain (m : Mesh K) (p : Nat → Nat) (N : Nat) : Prop where
  dim : m.dim = 1
  mono : ∀ i < N, m.vertices (p i) 0 < m.vertices (p (i + 1)) 0
  cell : ∀ c < m.numCells, ∃ i < N, CellAt m p c i
  all : ∀ i < N, ∃ c < m.numCells, CellAt m p c i
  vert : ∀ v < m.numVertices, ∃ i ≤ N, v = p i
  h : ∀ i < N, m.vertices (p (i + 1)) 0 - m.vertices (p i) 0 ≤ m.h

omit [LinearOrder K] [IsStrictOrderedRing K] [FloorRing K] in
theorem center_at {m : Mesh K} {p : Nat → Nat} (hd : m.dim = 1) {c i : Nat} (h : CellAt m p c i) :
    m.center c 0 = (m.vertices (p i) 0 + m.vertices (p (i + 1)) 0) / 2 := by
  have hr : List.range 2 = [0, 1] := rfl
  unfold Mesh.center
  rw [hd, hr]
  simp only [List.foldl_cons, List.foldl_nil, Mesh.simplex, zero_add, Nat.cast_one]
  rw [show (1 : K) + 1 = 2 by norm_num]
  rcases h with ⟨h1, h2⟩ | ⟨h1, h2⟩ <;> rw [h1, h2] <;> ring

omit [FloorRing K] in
theorem Chain.le {p : Nat → Nat} {N : Nat} (hch : Chain m p N) {i j : Nat} (hij : i ≤ j) (hj : j ≤ N) :
    m.vertices (p i) 0 ≤ m.vertices (p j) 0 := by
  induction j with
  | zero => rw [show i = 0 by omega]
  | succ j ih =>
    by_cases he : i = j + 1
    · rw [he]
    · exact (ih (by omega) (by omega)).trans (hch.mono j (by omega)).le

omit [FloorRing K] in
theorem Chain.pos {p : Nat → Nat} {N : Nat} (hch : Chain m p N) (hm : Valid m) : 0 < N := by
  obtain ⟨i, hi, _⟩ := hch.cell 0 hm.pos
  omega

omit [FloorRing K] in
theorem Chain.lt_vert {p : Nat → Nat} {N : Nat} (hch : Chain m p N) (hm : Valid m) {i : Nat} (hi : i ≤ N) : p i < m.numVertices := by
  have hp := hch.pos hm
  have key : ∀ j < N, p j < m.numVertices ∧ p (j + 1) < m.numVertices := by
    intro j hj
    obtain ⟨c, hc, h⟩ := hch.all j hj
    have h0 := hm.cell c hc 0 (by omega)
    have h1 := hm.cell c hc 1 (by rw [hch.dim])
    rcases h with ⟨a, b⟩ | ⟨a, b⟩ <;> rw [a] at h0 <;> rw [b] at h1
    · exact ⟨h0, h1⟩
    · exact ⟨h1, h0⟩
  by_cases h : i < N
  · exact (key i h).1
  · have := (key (N - 1) (by omega)).2
    rwa [show N - 1 + 1 = i by omega] at this

omit [Field K] [IsStrictOrderedRing K] [FloorRing K] in
theorem foldl_min_ge (f : Nat → K) (a : K) : ∀ (l : List Nat) (s : K), a ≤ s → (∀ i ∈ l, a ≤ f i) → a ≤ l.foldl (fun s i => min s (f i)) s := by
  intro l
  induction l with
  | nil => intro s hs _; exact hs
  | cons i l ih => intro s hs hl; exact ih _ (le_min hs (hl i List.mem_cons_self)) fun j hj => hl j (List.mem_cons_of_mem _ hj)

omit [Field K] [IsStrictOrderedRing K] [FloorRing K] in
theorem foldl_max_le (f : Nat → K) (a : K) : ∀ (l : List Nat) (s : K), s ≤ a → (∀ i ∈ l, f i ≤ a) → l.foldl (fun s i => max s (f i)) s ≤ a := by
  intro l
  induction l with
  | nil => intro s hs _; exact hs
  | cons i l ih => intro s hs hl; exact ih _ (max_le hs (hl i List.mem_cons_self)) fun j hj => hl j (List.mem_cons_of_mem _ hj)

omit [FloorRing K] in
theorem Chain.ends {p : Nat → Nat} {N : Nat} (hch : Chain m p N) (hm : Valid m) :
    m.xMin 0 = m.vertices (p 0) 0 ∧ m.xMax 0 = m.vertices (p N) 0 := by
  have hnv : 0 < m.numVertices := by
    have := hch.lt_vert hm (Nat.zero_le N)
    omega
  have hb : ∀ v < m.numVertices, m.vertices (p 0) 0 ≤ m.vertices v 0 ∧ m.vertices v 0 ≤ m.vertices (p N) 0 := by
    intro v hv
    obtain ⟨i, hi, rfl⟩ := hch.vert v hv
    exact ⟨hch.le (Nat.zero_le i) hi, hch.le hi le_rfl⟩
  constructor
  · refine le_antisymm (m.xMin_le (hch.lt_vert hm (Nat.zero_le N)) 0) ?_
    exact foldl_min_ge (fun i => m.vertices i 0) _ _ _ (hb 0 hnv).1 fun i hi => (hb i (List.mem_range.mp hi)).1
  · refine le_antisymm ?_ (m.le_xMax (hch.lt_vert hm le_rfl) 0)
    exact foldl_max_le (fun i => m.vertices i 0) _ _ _ (hb 0 hnv).2 fun i hi => (hb i (List.mem_range.mp hi)).2

/-- Half of a cell is shorter than a box. -/
theorem Chain.half {p : Nat → Nat} {N : Nat} (hch : Chain m p N) (hm : Valid m) (hlen : 1 / 2 ≤ m.xMax 0 - m.xMin 0) {L : Nat}
    (hL : 0 < L) (hb : L = 1 ∨ (L : K) * m.h < 1) {i : Nat} (hi : i < N) :
    (m.vertices (p (i + 1)) 0 - m.vertices (p i) 0) / 2 * m.diamInv L 0 < 1 := by
  obtain ⟨e1, e2⟩ := hch.ends hm
  have hD : 0 < m.xMax 0 - m.xMin 0 := by linarith
  unfold Mesh.diamInv
  set D := m.xMax 0 - m.xMin 0 with hDdef
  set t := m.vertices (p (i + 1)) 0 - m.vertices (p i) 0 with ht
  have key : t * L < 202 / 100 * D := by
    rcases hb with rfl | hb
    · have h1 : t ≤ D := by
        rw [ht, hDdef, e1, e2]
        have := hch.le (Nat.zero_le i) hi.le
        have := hch.le (show i + 1 ≤ N from hi) le_rfl
        linarith
      rw [Nat.cast_one, mul_one]
      linarith
    · have h1 := hch.h i hi
      have hLp : (0 : K) < L := by exact_mod_cast hL
      have : t * L ≤ m.h * L := mul_le_mul_of_nonneg_right h1 hLp.le
      rw [mul_comm] at hb
      linarith
  have : t / 2 * (↑L / D / (101 / 100)) = t * L / (202 / 100 * D) := by
    field_simp
    ring
  rw [this, div_lt_one (by positivity)]
  exact key

theorem coord_mono (hm : Valid m) {L : Nat} (hL : 0 < L) (hd : 0 < m.dim) {x y : Nat → K} (hx : m.xMin 0 ≤ x 0) (hxy : x 0 ≤ y 0) :
    m.coord L x 0 ≤ m.coord L y 0 := by
  rw [(coord_eq hm hL hd hx).1, (coord_eq hm hL hd (hx.trans hxy)).1]
  exact Int.floor_le_floor (mul_le_mul_of_nonneg_right (by linarith) (diamInv_pos hm hL hd).le)

/-- Floors of points at a distance of less than one box. -/
theorem coord_close (hm : Valid m) {L : Nat} (hL : 0 < L) (hd : 0 < m.dim) {x y : Nat → K} (hx : m.xMin 0 ≤ x 0) (hy : m.xMin 0 ≤ y 0)
    (hxy : |x 0 - y 0| * m.diamInv L 0 < 1) : |m.coord L x 0 - m.coord L y 0| ≤ 1 := by
  have hp := diamInv_pos hm hL hd
  rw [(coord_eq hm hL hd hx).1, (coord_eq hm hL hd hy).1]
  have h1 : |(x 0 - m.xMin 0) * m.diamInv L 0 - (y 0 - m.xMin 0) * m.diamInv L 0| < 1 := by
    have : (x 0 - m.xMin 0) * m.diamInv L 0 - (y 0 - m.xMin 0) * m.diamInv L 0 = (x 0 - y 0) * m.diamInv L 0 := by ring
    rw [this, abs_mul, abs_of_pos hp]
    exact hxy
  generalize (x 0 - m.xMin 0) * m.diamInv L 0 = a at h1 ⊢
  generalize (y 0 - m.xMin 0) * m.diamInv L 0 = b at h1 ⊢
  obtain ⟨h2, h3⟩ := abs_lt.mp h1
  have a1 := Int.floor_le a
  have a2 := Int.lt_floor_add_one a
  have b1 := Int.floor_le b
  have b2 := Int.lt_floor_add_one b
  have c1 : ⌊a⌋ < ⌊b⌋ + 2 := by
    have : (⌊a⌋ : K) < ((⌊b⌋ + 2 : Int) : K) := by push_cast; linarith
    exact_mod_cast this
  have c2 : ⌊b⌋ < ⌊a⌋ + 2 := by
    have : (⌊b⌋ : K) < ((⌊a⌋ + 2 : Int) : K) := by push_cast; linarith
    exact_mod_cast this
  rw [abs_le]
  omega

omit [FloorRing K] in
theorem Chain.locate {p : Nat → Nat} {N : Nat} (hch : Chain m p N) (x : K) (h0 : m.vertices (p 0) 0 ≤ x) :
    ∀ n, 0 < n → n ≤ N → x ≤ m.vertices (p n) 0 → ∃ i < n, m.vertices (p i) 0 ≤ x ∧ x ≤ m.vertices (p (i + 1)) 0 := by
  intro n
  induction n with
  | zero => intro h; omega
  | succ n ih =>
    intro _ hn hx
    by_cases hle : m.vertices (p n) 0 ≤ x
    · exact ⟨n, by omega, hle, hx⟩
    · have hpos : 0 < n := by
        rcases Nat.eq_zero_or_pos n with rfl | h
        · exact absurd h0 hle
        · exact h
      obtain ⟨i, h1, h2⟩ := ih hpos (by omega) (not_le.mp hle).le
      exact ⟨i, by omega, h2⟩

omit [FloorRing K] in
theorem Chain.inCell {p : Nat → Nat} {N : Nat} (hch : Chain m p N) {c i : Nat} (hi : i < N) (hc : CellAt m p c i) {x : Nat → K}
    (h1 : m.vertices (p i) 0 ≤ x 0) (h2 : x 0 ≤ m.vertices (p (i + 1)) 0) : InCell m.dim m.dim (m.simplex c) x := by
  have hlt := sub_pos.mpr (hch.mono i hi)
  rw [hch.dim]
  have hsum : ∀ (s : Nat → Nat → K) (b0 b1 : K), b0 + b1 = 1 → b0 * s 0 0 + b1 * s 1 0 = x 0 → 0 ≤ b0 → 0 ≤ b1 → InCell 1 1 s x := by
    intro s b0 b1 e1 e2 e3 e4
    refine ⟨[b0, b1], ⟨rfl, by simpa using e1, ?_⟩, by simp [e3, e4]⟩
    intro k hk
    obtain rfl : k = 0 := by omega
    simpa [Finset.sum_range_succ] using e2
  set a := m.vertices (p i) 0 with ha
  set b := m.vertices (p (i + 1)) 0 with hb
  have hne : b - a ≠ 0 := hlt.ne'
  have q1 : 0 ≤ (b - x 0) / (b - a) := div_nonneg (by linarith) hlt.le
  have q2 : 0 ≤ (x 0 - a) / (b - a) := div_nonneg (by linarith) hlt.le
  rcases hc with ⟨g1, g2⟩ | ⟨g1, g2⟩
  · refine hsum _ ((b - x 0) / (b - a)) ((x 0 - a) / (b - a)) (by field_simp; ring) ?_ q1 q2
    simp only [Mesh.simplex, g1, g2, ← ha, ← hb]
    field_simp
    ring
  · refine hsum _ ((x 0 - a) / (b - a)) ((b - x 0) / (b - a)) (by field_simp; ring) ?_ q2 q1
    simp only [Mesh.simplex, g1, g2, ← ha, ← hb]
    field_simp
    ring

omit [LinearOrder K] [IsStrictOrderedRing K] [FloorRing K] [Field K] in
theorem touch_same {m : Mesh K} {p : Nat → Nat} (hd : m.dim = 1) {c c' i : Nat} (h : CellAt m p c i) (h' : CellAt m p c' i) :
    Touch m c c' := by
  rcases h with ⟨a, b⟩ | ⟨a, b⟩ <;> rcases h' with ⟨a', b'⟩ | ⟨a', b'⟩
  · exact ⟨0, by omega, 0, by omega, a.trans a'.symm⟩
  · exact ⟨0, by omega, 1, by omega, a.trans b'.symm⟩
  · exact ⟨1, by omega, 0, by omega, b.trans a'.symm⟩
  · exact ⟨1, by omega, 1, by omega, b.trans b'.symm⟩

omit [LinearOrder K] [IsStrictOrderedRing K] [FloorRing K] [Field K] in
theorem touch_next {m : Mesh K} {p : Nat → Nat} (hd : m.dim = 1) {c c' i : Nat} (h : CellAt m p c i) (h' : CellAt m p c' (i + 1)) :
    Touch m c c' ∧ Touch m c' c := by
  rcases h with ⟨a, b⟩ | ⟨a, b⟩ <;> rcases h' with ⟨a', b'⟩ | ⟨a', b'⟩
  · exact ⟨⟨1, by omega, 0, by omega, b.trans a'.symm⟩, ⟨0, by omega, 1, by omega, a'.trans b.symm⟩⟩
  · exact ⟨⟨1, by omega, 1, by omega, b.trans b'.symm⟩, ⟨1, by omega, 1, by omega, b'.trans b.symm⟩⟩
  · exact ⟨⟨0, by omega, 0, by omega, a.trans a'.symm⟩, ⟨0, by omega, 0, by omega, a'.trans a.symm⟩⟩
  · exact ⟨⟨0, by omega, 1, by omega, a.trans b'.symm⟩, ⟨1, by omega, 0, by omega, b'.trans a.symm⟩⟩

omit [IsStrictOrderedRing K] in
theorem key_line {m : Mesh K} (hd : m.dim = 1) {L : Nat} {x y : Nat → K} (h : m.coord L x 0 = m.coord L y 0) : m.key L x = m.key L y := by
  simp only [Mesh.key, h, coord_ge m L x (show m.dim ≤ 1 by omega), coord_ge m L y (show m.dim ≤ 1 by omega),
    coord_ge m L x (show m.dim ≤ 2 by omega), coord_ge m L y (show m.dim ≤ 2 by omega)]

omit [IsStrictOrderedRing K] in
theorem near_of_key {L : Nat} {x : Nat → K} {c : Nat} (hd : m.dim = 1) (hc : c < m.numCells)
    (h : m.coord L (m.center c) 0 = m.coord L x 0) : Near m L x c := by
  refine ⟨hc, fun _ => key_line hd h, fun j hj => ?_⟩
  obtain rfl : j = 0 := by omega
  rw [h]
  simp

/-- On a mesh of an interval the cell of the point is tried. -/
theorem Chain.tried {p : Nat → Nat} {N : Nat} (hch : Chain m p N) (hm : Valid m) (hlen : 1 / 2 ≤ m.xMax 0 - m.xMin 0) {L : Nat}
    (hL : 0 < L) (hb : L = 1 ∨ (L : K) * m.h < 1) {x : Nat → K} {c i : Nat} (hc : c < m.numCells) (hi : i < N) (hci : CellAt m p c i)
    (h1 : m.vertices (p i) 0 ≤ x 0) (h2 : x 0 ≤ m.vertices (p (i + 1)) 0) : Tried m L x c := by
  have hd0 : 0 < m.dim := by rw [hch.dim]; omega
  obtain ⟨e1, e2⟩ := hch.ends hm
  have hx0 : m.xMin 0 ≤ x 0 := by rw [e1]; exact (hch.le (Nat.zero_le i) hi.le).trans h1
  have hcen : ∀ c' i', CellAt m p c' i' → i' < N → m.vertices (p i') 0 ≤ m.center c' 0 ∧ m.center c' 0 ≤ m.vertices (p (i' + 1)) 0 := by
    intro c' i' h hi'
    have := hch.mono i' hi'
    rw [center_at hch.dim h]
    constructor <;> linarith
  have hcmin : ∀ c' < m.numCells, m.xMin 0 ≤ m.center c' 0 := fun c' h => (hm.center_box h 0 hd0).1
  by_cases hocc : ∃ c' < m.numCells, m.key L (m.center c') = m.key L x
  · obtain ⟨c', hc', hk⟩ := hocc
    have hk0 : m.coord L (m.center c') 0 = m.coord L x 0 := (Prod.mk.inj hk).1
    obtain ⟨i', hi', hci'⟩ := hch.cell c' hc'
    obtain ⟨b1, b2⟩ := hcen c' i' hci' hi'
    rcases Nat.lt_trichotomy i' i with hlt | rfl | hgt
    · obtain ⟨q, hq, hqi⟩ := hch.all (i - 1) (by omega)
      have hci2 : CellAt m p c (i - 1 + 1) := by rwa [show i - 1 + 1 = i by omega]
      obtain ⟨d1, d2⟩ := hcen q (i - 1) hqi (by omega)
      rw [show i - 1 + 1 = i by omega] at d2
      refine ⟨hc, q, near_of_key hch.dim hq ?_, (touch_next hch.dim hqi hci2).2⟩
      have g1 : m.center c' 0 ≤ m.center q 0 := by
        by_cases he : i' = i - 1
        · rw [center_at hch.dim hqi, center_at hch.dim hci', he]
        · exact b2.trans ((hch.le (show i' + 1 ≤ i - 1 by omega) (by omega)).trans d1)
      have m1 := coord_mono hm hL hd0 (hcmin c' hc') g1
      have m2 := coord_mono hm hL hd0 (hcmin q hq) (d2.trans h1)
      omega
    · exact ⟨hc, c', near_of_key hch.dim hc' hk0, touch_same hch.dim hci hci'⟩
    · obtain ⟨q, hq, hqi⟩ := hch.all (i + 1) (by omega)
      obtain ⟨d1, d2⟩ := hcen q (i + 1) hqi (by omega)
      refine ⟨hc, q, near_of_key hch.dim hq ?_, (touch_next hch.dim hci hqi).1⟩
      have g1 : m.center q 0 ≤ m.center c' 0 := by
        by_cases he : i' = i + 1
        · rw [center_at hch.dim hqi, center_at hch.dim hci', he]
        · exact d2.trans ((hch.le (show i + 1 + 1 ≤ i' by omega) (by omega)).trans b1)
      have m1 := coord_mono hm hL hd0 (hcmin q hq) g1
      have m2 := coord_mono hm hL hd0 hx0 (h2.trans d1)
      omega
  · refine near_tried ⟨hc, fun h => absurd h hocc, fun j hj => ?_⟩
    have hj0 : j = 0 := by rw [hch.dim] at hj; omega
    subst hj0
    refine coord_close hm hL hd0 (hcmin c hc) hx0 (lt_of_le_of_lt ?_ (hch.half hm hlen hL hb hi))
    refine mul_le_mul_of_nonneg_right ?_ (diamInv_pos hm hL hd0).le
    rw [center_at hch.dim hci, abs_le]
    constructor <;> linarith

/-- For meshes of an interval that is not shorter than 1/2, every point is found and the returned cell contains it, except for
points in the last slice if no centre of a cell is in it. -/
theorem complete_line_partial {p : Nat → Nat} {N : Nat} (hch : Chain m p N) (hm : Valid m) (hlen : 1 / 2 ≤ m.xMax 0 - m.xMin 0)
    (hf : build m fuel = some f) (hord : ∀ l, (order l).Perm l) {x : Nat → K} (h0 : m.xMin 0 ≤ x 0) (h1 : x 0 ≤ m.xMax 0)
    (hlast : m.coord f.L x 0 < m.maxKey f.L ∨ ∃ c < m.numCells, m.key f.L (m.center c) = m.key f.L x) :
    ∃ c b, findCell order f x = some (some (c, b)) ∧ c < m.numCells ∧ IsBary 1 1 (m.simplex c) x b ∧ ∀ a ∈ b, 0 ≤ a := by
  have hd0 : 0 < m.dim := by rw [hch.dim]; omega
  have hfit := fit_line hch.dim
  obtain ⟨hL, hbd⟩ : 0 < f.L ∧ (f.L = 1 ∨ (f.L : K) * m.h < 1) := by
    cases hdb : doubling m.h fuel 1 with
    | none => unfold build at hf; rw [hdb] at hf; cases hf
    | some L =>
      obtain ⟨f', map, g1, g2, g3⟩ := build_spec hm hdb (hfit L)
      rw [hf] at g1
      cases g1
      refine ⟨g3.pos, ?_⟩
      rw [g2]
      exact (doubling_bound hdb).2
  obtain ⟨e1, e2⟩ := hch.ends hm
  obtain ⟨i, hi, b1, b2⟩ := hch.locate (x 0) (by rw [← e1]; exact h0) N (hch.pos hm) le_rfl (by rw [← e2]; exact h1)
  obtain ⟨c, hc, hci⟩ := hch.all i hi
  have hbox : InBox m x := by
    intro k hk
    have : k = 0 := by rw [hch.dim] at hk; omega
    subst this
    exact ⟨h0, h1⟩
  have hsafe : SafeKey m f.L x := by
    rcases hlast with hl | hl
    · by_cases hz : 0 < m.coord f.L x 0
      · exact Or.inr ⟨hz, hl⟩
      · left
        obtain ⟨q, hq, hqi⟩ := hch.all 0 (hch.pos hm)
        refine ⟨q, hq, key_line hch.dim ?_⟩
        have hx0 : m.coord f.L x 0 = 0 := by
          have := (coord_eq hm hL hd0 h0).2
          omega
        have hmin := (hm.center_box hq 0 hd0).1
        rw [hx0, (coord_eq hm hL hd0 hmin).1, Int.floor_eq_iff]
        have hp := diamInv_pos hm hL hd0
        have hhalf := hch.half hm hlen hL hbd (hch.pos hm)
        have : m.center q 0 - m.xMin 0 = (m.vertices (p (0 + 1)) 0 - m.vertices (p 0) 0) / 2 := by
          rw [center_at hch.dim hqi, e1]
          ring
        rw [this, Int.cast_zero]
        refine ⟨mul_nonneg ?_ hp.le, lt_of_lt_of_eq hhalf (zero_add _).symm⟩
        have := hch.mono 0 (hch.pos hm)
        linarith
    · exact Or.inl hl
  obtain ⟨c', b, g1, g2, g3, g4⟩ := exact_partial hm hfit hf hord hbox hsafe (hch.tried hm hlen hL hbd hc hi hci b1 b2)
    (hch.inCell hi hci b1 b2)
  rw [hch.dim] at g3
  exact ⟨c', b, g1, g2, g3, g4⟩

/-! ### Functions -/

/-- The value of the finite element function at a point: 0 for points that are not found. -/
theorem lookup_value (order : List Nat → List Nat) (f : Finder K) (dpe : Nat) (cell2dof : Nat → Nat → Int)
    (phi : Nat → List K → K) (u : Nat → K) (x : Nat → K) :
    lookupEval order f dpe cell2dof phi u x = (findCell order f x).map fun r => (r.map fun cb =>
      ∑ k ∈ Finset.range dpe, if 0 ≤ cell2dof cb.1 k then phi k cb.2 * u (cell2dof cb.1 k).toNat else 0).getD 0 := by
  unfold lookupEval
  cases findCell order f x with
  | none => rfl
  | some r =>
    cases r with
    | none => rfl
    | some cb =>
      simp only [Option.map_some, Option.getD_some]
      congr 1
      induction dpe with
      | zero => rfl
      | succ n ih =>
        rw [List.range_succ, List.foldl_append, List.foldl_cons, List.foldl_nil, ih, Finset.sum_range_succ]
        split
        · rfl
        · rw [add_zero]

/-- Piecewise linear interpolation reproduces affine functions at every point that is found. -/
theorem lookup_affine (hm : Valid m) (hfit : ∀ L, KeysFit m L) (hf : build m fuel = some f) (hord : ∀ l, (order l).Perm l) {x : Nat → K}
    {r : Nat × List K} (hr : findCell order f x = some (some r)) (cell2dof : Nat → Nat → Int) (u : Nat → K) (α : K) (β : Nat → K)
    (hdof : ∀ c < m.numCells, ∀ k ≤ m.dim, 0 ≤ cell2dof c k ∧
      u (cell2dof c k).toNat = α + ∑ j ∈ Finset.range m.dim, β j * m.simplex c k j) :
    lookupEval order f (m.dim + 1) cell2dof (fun k b => b.getD k 0) u x = some (α + ∑ j ∈ Finset.range m.dim, β j * x j) := by
  obtain ⟨c, b⟩ := r
  obtain ⟨h1, ⟨h2, h3, h4⟩, _⟩ := sound hm hfit hf hord hr
  rw [lookup_value, hr]
  simp only [Option.map_some, Option.getD_some, Option.some.injEq]
  have hb : ∑ k ∈ Finset.range (m.dim + 1), b.getD k 0 = 1 := by
    rw [← h3, ← h2]
    have : ∀ l : List K, ∑ k ∈ Finset.range l.length, l.getD k 0 = l.sum := by
      intro l
      induction l with
      | nil => rfl
      | cons a l ih =>
        rw [List.length_cons, Finset.sum_range_succ', List.sum_cons, ← ih, add_comm]
        simp
    exact this b
  have e : ∀ k ∈ Finset.range (m.dim + 1), (if 0 ≤ cell2dof c k then b.getD k 0 * u (cell2dof c k).toNat else 0) =
      b.getD k 0 * α + ∑ j ∈ Finset.range m.dim, β j * (b.getD k 0 * m.simplex c k j) := by
    intro k hk
    obtain ⟨g1, g2⟩ := hdof c h1 k (by have := Finset.mem_range.mp hk; omega)
    rw [if_pos g1, g2, mul_add, Finset.mul_sum]
    congr 1
    exact Finset.sum_congr rfl fun j _ => by ring
  rw [Finset.sum_congr rfl e, Finset.sum_add_distrib, ← Finset.sum_mul, hb, one_mul, Finset.sum_comm]
  congr 1
  refine Finset.sum_congr rfl fun j hj => ?_
  rw [← Finset.mul_sum, h4 j (Finset.mem_range.mp hj)]

/-- Linear interpolation between two points of the grid. -/
theorem uniform_value (a b : K) (hab : a < b) (n : Nat) (vals : Nat → K) (i : Nat) (hi : i + 1 < n) (θ : K) (h0 : 0 ≤ θ) (h1 : θ ≤ 1) :
    uniformLookup a b n vals (a + (i + θ) * ((b - a) / ((n : K) - 1))) = (1 - θ) * vals i + θ * vals (i + 1) := by
  have hn : (0 : K) < (n : K) - 1 := by
    have : ((2 : Nat) : K) ≤ n := by exact_mod_cast (show 2 ≤ n by omega)
    push_cast at this
    linarith
  have hdx : 0 < (b - a) / ((n : K) - 1) := div_pos (sub_pos.mpr hab) hn
  unfold uniformLookup
  set dx := (b - a) / ((n : K) - 1) with hdxdef
  have e1 : (a + (i + θ) * dx - a) * (1 / dx) = i + θ := by
    field_simp
    ring
  have hpos : (0 : K) ≤ i + θ := by positivity
  simp only [e1, trunc_nonneg hpos]
  by_cases hθ : θ < 1
  · have hfl : ⌊(i : K) + θ⌋ = (i : Int) := by
      rw [Int.floor_eq_iff]
      push_cast
      constructor <;> linarith
    have hk : (max (min ⌊(i : K) + θ⌋ ((n : Int) - 2)) 0).toNat = i := by
      rw [hfl]
      omega
    have e2 : (a + (i + θ) * dx - a - i * dx) * (1 / dx) = θ := by
      field_simp
      ring
    rw [hk, e2]
  · have hθ1 : θ = 1 := le_antisymm h1 (not_lt.mp hθ)
    subst hθ1
    have hfl : ⌊(i : K) + 1⌋ = (i : Int) + 1 := by
      rw [Int.floor_eq_iff]
      push_cast
      constructor <;> linarith
    by_cases hlast : i + 2 < n
    · have hk : (max (min ⌊(i : K) + 1⌋ ((n : Int) - 2)) 0).toNat = i + 1 := by
        rw [hfl]
        omega
      have e2 : (a + (i + 1) * dx - a - ((i + 1 : Nat) : K) * dx) * (1 / dx) = 0 := by
        push_cast
        ring
      rw [hk, e2]
      ring
    · have hk : (max (min ⌊(i : K) + 1⌋ ((n : Int) - 2)) 0).toNat = i := by
        rw [hfl]
        omega
      have e2 : (a + (i + 1) * dx - a - i * dx) * (1 / dx) = 1 := by
        field_simp
        ring
      rw [hk, e2]

omit [IsStrictOrderedRing K] in
/-- Affine functions are reproduced everywhere, also outside of the grid. -/
theorem uniform_affine (a b : K) (hab : a ≠ b) (n : Nat) (hn : (n : K) ≠ 1) (α β x : K) :
    uniformLookup a b n (fun i => α + β * (a + i * ((b - a) / ((n : K) - 1)))) x = α + β * x := by
  have h1 : (n : K) - 1 ≠ 0 := sub_ne_zero.mpr hn
  have h2 : b - a ≠ 0 := sub_ne_zero.mpr (Ne.symm hab)
  have hdx : (b - a) / ((n : K) - 1) ≠ 0 := div_ne_zero h2 h1
  unfold uniformLookup
  set dx := (b - a) / ((n : K) - 1) with hdxdef
  simp only
  generalize (max (min (trunc ((x - a) * (1 / dx))) ((n : Int) - 2)) 0).toNat = k
  push_cast
  field_simp
  ring

/-! ### Cases -/

/-- The interval `[0, D]` with `N` equal cells. -/
def interval (N : Nat) (D : ℚ) : Mesh ℚ where
  dim := 1
  numVertices := N + 1
  numCells := N
  vertices := fun i _ => (i : ℚ) * (D / N)
  cells := fun c i => c + i
  h := D / N

theorem interval_valid {N : Nat} (hN : 0 < N) {D : ℚ} (hD : 0 < D) : Valid (interval N D) := by
  have hN' : (0 : ℚ) < N := by exact_mod_cast hN
  have hh : 0 < D / N := by positivity
  refine ⟨Or.inl rfl, hN, ?_, ?_, ?_, hh⟩
  · intro c hc i hi
    simp only [interval] at hc hi ⊢
    omega
  · intro _ c _
    simp only [Mesh.simplex, interval]
    push_cast
    nlinarith
  · intro h
    simp [interval] at h

theorem interval_chain {N : Nat} (hN : 0 < N) {D : ℚ} (hD : 0 < D) : Chain (interval N D) id N := by
  have hN' : (0 : ℚ) < N := by exact_mod_cast hN
  have hh : 0 < D / N := by positivity
  refine ⟨rfl, ?_, fun c hc => ⟨c, hc, Or.inl ⟨rfl, rfl⟩⟩, fun i hi => ⟨i, hi, Or.inl ⟨rfl, rfl⟩⟩, ?_, ?_⟩
  · intro i _
    simp only [interval, id]
    push_cast
    linarith
  · intro v hv
    simp only [interval] at hv
    exact ⟨v, by omega, rfl⟩
  · intro i _
    simp only [interval, id]
    push_cast
    linarith

/-- Two triangles. -/
def square : Mesh ℚ where
  dim := 2
  numVertices := 4
  numCells := 2
  vertices := fun i k => if k = 0 then (if i = 1 ∨ i = 2 then 1 else 0) else (if i = 2 ∨ i = 3 then 1 else 0)
  cells := fun c i => if c = 0 then i else [0, 2, 3].getD i 0
  h := 3 / 2

theorem square_valid : Valid square :=
  ⟨Or.inr rfl, by decide, by decide, fun h => absurd h (by decide), fun _ => by decide +kernel, by decide +kernel⟩

example : ∀ L, KeysFit square L := by
  intro L I l hl hmem
  have hsub : l ⊆ [(square.key L (square.center 0)).2, (square.key L (square.center 1)).2] := by
    intro k hk
    obtain ⟨c, hc, he⟩ := hmem k hk
    have : c = 0 ∨ c = 1 := by simp only [square] at hc; omega
    rcases this with rfl | rfl <;> simp [he]
  have := (List.Nodup.subperm hl hsub).length_le
  simp only [List.length_cons, List.length_nil] at this
  omega

example : ((build square 5).bind fun f => findCell id f fun k => if k = 0 then 1 / 4 else 1 / 2) = some (some (1, [1 / 2, 1 / 4, 1 / 4])) := by
  decide +kernel

example : ((build (interval 4 1) 5).bind fun f => findCell id f fun _ => 3 / 10) = some (some (1, [4 / 5, 1 / 5])) := by
  decide +kernel

/-- On the unit interval with four cells no point is excluded. -/
example (f : Finder ℚ) (hf : build (interval 4 1) 5 = some f) : f.L = 2 ∧ (interval 4 1).maxKey 2 = 1 ∧
    (interval 4 1).key 2 ((interval 4 1).center 3) = (1, 0, 0) := by
  have : (build (interval 4 1) 5).map (fun f => f.L) = some 2 := by decide +kernel
  rw [hf] at this
  exact ⟨Option.some.inj this, by decide +kernel, by decide +kernel⟩

example : uniformLookup (0 : ℚ) 2 3 (fun i => [5, 7, 1].getD i 0) (3 / 2) = 4 := by decide +kernel

/-! ### Defects -/

/-- On a short interval the vertex between the two cells is not found. -/
theorem complete_fails : ((build (interval 2 (1 / 10)) 10).bind fun f => findCell id f fun _ => 1 / 20) = some none ∧
    InCell 1 1 ((interval 2 (1 / 10)).simplex 0) fun _ => 1 / 20 := by
  refine ⟨by decide +kernel, [0, 1], ⟨rfl, by norm_num, ?_⟩, by simp⟩
  intro k hk
  obtain rfl : k = 0 := by omega
  norm_num [Finset.sum_range_succ, Mesh.simplex, interval]

/-- On the unit interval with 65 cells of equal size, the search for the right end reads outside of the arrays of the dictionary. -/
theorem last_fails : (build (interval 65 1) 10).isSome = true ∧
    ((build (interval 65 1) 10).bind fun f => findCell id f fun _ => 1) = none := by
  constructor <;> decide +kernel

/-- On a short interval the search for the left end reads outside of the arrays of the dictionary. -/
theorem first_fails : (build (interval 2 (1 / 10)) 10).isSome = true ∧
    ((build (interval 2 (1 / 10)) 10).bind fun f => findCell id f fun _ => 0) = none := by
  constructor <;> decide +kernel

/-- So does the search for a point outside of the bounding box, instead of returning −1. -/
theorem outside_fails (hm : Valid m) (hfit : ∀ L, KeysFit m L) (hf : build m fuel = some f) (order : List Nat → List Nat) {x : Nat → K}
    (hx : m.coord f.L x 0 < 0 ∨ m.maxKey f.L < m.coord f.L x 0) : findCell order f x = none := by
  obtain ⟨map, hb⟩ := built_of_build hm hf fun L _ => hfit L
  have hc : candidates f x = none := by
    unfold candidates
    rw [hb.mesh]
    cases hg : FaceVals.getValue f.lookup (m.key f.L x).1 (m.key f.L x).2.1 (m.key f.L x).2.2 with
    | none => rfl
    | some v =>
      have h1 := (getValue_some hb.rel hg).1
      have h2 : (m.key f.L x).1 = m.coord f.L x 0 := rfl
      have h3 := maxKey_nonneg m f.L
      rw [h2] at h1
      push_cast at h1
      omega
  unfold findCell
  rw [hc]

example : (interval 4 1).coord 2 (fun _ => -1) 0 < 0 := by decide +kernel

/-- If the 256 cells of a mesh have their centres in different boxes with the same first number, no finder can be set up: the
counter of `faceVals` wraps around. -/
theorem build_overflow (hm : Valid m) (hn : m.numCells = 256) (I : Int)
    (hI : ∀ L c, c < 256 → doubling m.h fuel 1 = some L → (m.key L (m.center c)).1 = I)
    (hinj : ∀ L c c', c < 256 → c' < 256 → doubling m.h fuel 1 = some L → m.key L (m.center c) = m.key L (m.center c') → c = c') :
    build m fuel = none := by
  unfold build
  cases hL : doubling m.h fuel 1 with
  | none => rfl
  | some L =>
    have hpos := doubling_pos hL one_pos
    have hr := key_range hm hpos (hm.center_box hm.pos)
    rw [hI L 0 (by omega) hL] at hr
    have hmap : (List.range m.numCells).map (fun c => m.key L (m.center c)) =
        ((List.range m.numCells).map fun c => (m.key L (m.center c)).2).map fun k => (I, k) := by
      rw [List.map_map]
      refine List.map_congr_left fun c hc => ?_
      rw [Function.comp_apply, ← hI L c (by rw [← hn]; exact List.mem_range.mp hc) hL]
    obtain ⟨d, n, e1, e2⟩ := enterAll_overflow hr.1 hr.2 (ks := (List.range m.numCells).map fun c => (m.key L (m.center c)).2)
      (by
        refine List.Nodup.map_on ?_ List.nodup_range
        intro c hc c' hc' he
        rw [List.mem_range, hn] at hc hc'
        refine hinj L c c' hc hc' hL (Prod.ext ?_ he)
        rw [hI L c hc hL, hI L c' hc' hL])
      (by rw [List.length_map, List.length_range, hn])
    simp only [hmap, e1]
    have hget : ∀ ks : List (Int × Int), getAll d (ks.map fun k => (I, k)) = some (ks.map fun _ => -1) := by
      intro ks
      induction ks with
      | nil => rfl
      | cons k ks ih => simp only [List.map_cons, getAll, e2 k, ih, Option.map_some]
    rw [hget]
    simp only
    rw [if_pos]
    rw [List.countP_eq_zero.mpr, hn]
    · omega
    · intro i hi
      obtain ⟨_, _, rfl⟩ := List.mem_map.mp hi
      decide

/-- A strip of 256 triangles with sides 3, 4 and 5. -/
def strip : Mesh ℚ where
  dim := 2
  numVertices := 513
  numCells := 256
  vertices := fun i k => if k = 0 then (if i % 2 = 1 then 3 / 5120 else 0) else ((i / 2 : Nat) : ℚ) * (4 / 5120)
  cells := fun c i => 2 * c + i
  h := 5 / 5120

theorem strip_simplex (c : Nat) : strip.simplex c 0 0 = 0 ∧ strip.simplex c 1 0 = 3 / 5120 ∧ strip.simplex c 2 0 = 0 ∧
    strip.simplex c 0 1 = c * (4 / 5120) ∧ strip.simplex c 1 1 = c * (4 / 5120) ∧ strip.simplex c 2 1 = (c + 1) * (4 / 5120) := by
  have h1 : (2 * c + 1) % 2 = 1 := by omega
  have h2 : ¬(2 * c + 0) % 2 = 1 := by omega
  have h3 : ¬(2 * c + 2) % 2 = 1 := by omega
  have h4 : (2 * c + 0) / 2 = c := by omega
  have h5 : (2 * c + 1) / 2 = c := by omega
  have h6 : (2 * c + 2) / 2 = c + 1 := by omega
  simp only [Mesh.simplex, strip, h1, h2, h3, h4, h5, h6, if_true, if_false, one_ne_zero]
  push_cast
  simp

theorem strip_valid : Valid strip := by
  refine ⟨Or.inr rfl, by decide, ?_, fun h => absurd h (by decide), ?_, by decide +kernel⟩
  · intro c hc i hi
    simp only [strip] at hc hi ⊢
    omega
  · intro _ c _
    obtain ⟨h1, h2, h3, h4, h5, h6⟩ := strip_simplex c
    rw [h1, h2, h3, h4, h5, h6]
    have : (3 / 5120 - 0 : ℚ) * ((c + 1) * (4 / 5120) - c * (4 / 5120)) - (c * (4 / 5120) - c * (4 / 5120)) * (0 - 0) = 12 / 5120 ^ 2 := by
      ring
    rw [this]
    norm_num

theorem strip_box : strip.xMin 0 = 0 ∧ strip.xMin 1 = 0 ∧ strip.xMax 0 = 3 / 5120 ∧ strip.xMax 1 = 1 / 5 := by
  have v0 : ∀ i, strip.vertices i 0 = if i % 2 = 1 then 3 / 5120 else 0 := fun i => rfl
  have v1 : ∀ i, strip.vertices i 1 = ((i / 2 : Nat) : ℚ) * (4 / 5120) := fun i => rfl
  have hn : strip.numVertices = 513 := rfl
  have hb0 : ∀ i, 0 ≤ strip.vertices i 0 ∧ strip.vertices i 0 ≤ 3 / 5120 := by
    intro i
    rw [v0]
    split <;> norm_num
  have hb1 : ∀ i < 513, 0 ≤ strip.vertices i 1 ∧ strip.vertices i 1 ≤ 1 / 5 := by
    intro i hi
    rw [v1]
    have : ((i / 2 : Nat) : ℚ) ≤ (256 : Nat) := by exact_mod_cast (show i / 2 ≤ 256 by omega)
    push_cast at this ⊢
    constructor
    · positivity
    · linarith
  refine ⟨le_antisymm ?_ ?_, le_antisymm ?_ ?_, le_antisymm ?_ ?_, le_antisymm ?_ ?_⟩
  · have := strip.xMin_le (i := 0) (by rw [hn]; omega) 0
    rwa [v0, if_neg (by omega)] at this
  · exact foldl_min_ge (fun i => strip.vertices i 0) _ _ _ (hb0 0).1 fun i _ => (hb0 i).1
  · have := strip.xMin_le (i := 0) (by rw [hn]; omega) 1
    simpa [v1] using this
  · exact foldl_min_ge (fun i => strip.vertices i 1) _ _ _ (hb1 0 (by omega)).1 fun i hi => (hb1 i (List.mem_range.mp hi)).1
  · exact foldl_max_le (fun i => strip.vertices i 0) _ _ _ (hb0 0).2 fun i _ => (hb0 i).2
  · have := strip.le_xMax (i := 1) (by rw [hn]; omega) 0
    rwa [v0, if_pos (by omega)] at this
  · exact foldl_max_le (fun i => strip.vertices i 1) _ _ _ (hb1 0 (by omega)).2 fun i hi => (hb1 i (List.mem_range.mp hi)).2
  · have := strip.le_xMax (i := 512) (by rw [hn]; omega) 1
    rw [v1] at this
    norm_num at this
    linarith

/-- For this strip the constructor fails. -/
theorem overflow_fails : build strip 20 = none := by
  obtain ⟨b1, b2, b3, b4⟩ := strip_box
  have hL : ∀ L, doubling strip.h 20 1 = some L → L = 512 := by
    intro L h
    have : doubling strip.h 20 1 = some 512 := by decide +kernel
    rw [this] at h
    exact (Option.some.inj h).symm
  have hr : List.range 3 = [0, 1, 2] := rfl
  have hdim : strip.dim = 2 := rfl
  have c0 : ∀ c, strip.center c 0 = 1 / 5120 := by
    intro c
    obtain ⟨h1, h2, h3, _⟩ := strip_simplex c
    simp only [Mesh.center, hdim, hr, List.foldl_cons, List.foldl_nil, h1, h2, h3]
    norm_num
  have c1 : ∀ c, strip.center c 1 = (3 * c + 1) * (4 / 15360) := by
    intro c
    obtain ⟨_, _, _, h4, h5, h6⟩ := strip_simplex c
    simp only [Mesh.center, hdim, hr, List.foldl_cons, List.foldl_nil, h4, h5, h6]
    push_cast
    ring
  refine build_overflow strip_valid rfl 168 ?_ ?_
  · intro L c _ h
    rw [hL L h]
    show strip.coord 512 (strip.center c) 0 = 168
    rw [(coord_eq strip_valid (by omega) (by decide) (by rw [b1, c0]; norm_num)).1, c0, Int.floor_eq_iff]
    simp only [Mesh.diamInv, b1, b3]
    norm_num
  · intro L c c' _ _ h he
    rw [hL L h] at he
    have h1 : strip.coord 512 (strip.center c) 1 = strip.coord 512 (strip.center c') 1 := (Prod.mk.inj (Prod.mk.inj he).2).1
    have hval : ∀ c, strip.coord 512 (strip.center c) 1 = ⌊(3 * (c : ℚ) + 1) * (200 / 303)⌋ := by
      intro c
      have hp : strip.xMin 1 ≤ strip.center c 1 := by
        rw [b2, c1]
        have : (0 : ℚ) ≤ c := Nat.cast_nonneg c
        linarith
      have e : (strip.center c 1 - strip.xMin 1) * strip.diamInv 512 1 = (3 * (c : ℚ) + 1) * (200 / 303) := by
        rw [c1, b2, Mesh.diamInv, b2, b4]
        generalize (c : ℚ) = q
        norm_num
        ring
      rw [(coord_eq strip_valid (by omega) (by decide) hp).1, e]
    rw [hval, hval] at h1
    have key : ∀ a b : Nat, a < b → ⌊(3 * (a : ℚ) + 1) * (200 / 303)⌋ < ⌊(3 * (b : ℚ) + 1) * (200 / 303)⌋ := by
      intro a b hab
      rw [← Int.add_one_le_iff, Int.le_floor]
      push_cast
      have g1 := Int.floor_le ((3 * (a : ℚ) + 1) * (200 / 303))
      have g2 : (a : ℚ) + 1 ≤ b := by exact_mod_cast hab
      linarith
    rcases Nat.lt_trichotomy c c' with hlt | heq | hgt
    · have := key c c' hlt
      omega
    · exact heq
    · have := key c' c hgt
      omega

end PyNucleus.Props.C80
