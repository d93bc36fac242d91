import Verif.Model.IntervalMesh
import Verif.Proof.StructuredMesh
import Mathlib.Data.List.Chain
import Mathlib.Data.List.Range
import Mathlib.Analysis.Convex.SpecificFunctions.Basic

/-! Lemmas about meshes of intervals. -/

namespace PyNucleus.IntervalMesh

open StructuredMesh

section Uniform
variable {K : Type} [Field K] [LinearOrder K] [IsStrictOrderedRing K]

/-- A list from `p` to `q` whose neighbours are related by `R`. -/
structure Path (R : K → K → Prop) (p q : K) (l : List K) : Prop where
  chain : l.IsChain R
  head : l.head? = some p
  last : l.getLast? = some q

theorem Path.ne_nil {R : K → K → Prop} {p q : K} {l : List K} (h : Path R p q l) : l ≠ [] := by
  rintro rfl
  simpa using h.head

theorem Path.cons {R : K → K → Prop} {p q : K} {l : List K} (h : Path R p q l) : l = p :: l.tail := by
  have := h.head
  cases l with
  | nil => simp at this
  | cons a l => simp at this; rw [this]; rfl

theorem Path.concat {R : K → K → Prop} {p q : K} {l : List K} (h : Path R p q l) : l = l.dropLast ++ [q] := by
  have h1 := h.last
  rw [List.getLast?_eq_some_getLast h.ne_nil] at h1
  rw [← Option.some.inj h1, List.dropLast_append_getLast]

theorem Path.mono {R S : K → K → Prop} {p q : K} {l : List K} (h : Path R p q l) (hRS : ∀ a b, R a b → S a b) : Path S p q l :=
  ⟨h.chain.imp hRS, h.head, h.last⟩

/-- Two lists with a common end. -/
theorem Path.glue {R : K → K → Prop} {p q r : K} {l1 l2 : List K} (h1 : Path R p q l1) (h2 : Path R q r l2) : Path R p r (l1 ++ l2.tail) := by
  have e1 := h1.concat
  have e2 := h2.cons
  have e : l1 ++ l2.tail = l1.dropLast ++ q :: l2.tail := by
    conv => lhs; rw [e1]
    rw [List.append_assoc]; rfl
  refine ⟨?_, ?_, ?_⟩
  · rw [e, List.isChain_split, ← e1, ← e2]
    exact ⟨h1.chain, h2.chain⟩
  · rw [h1.cons]; rfl
  · rw [e, ← e2, List.getLast?_append_of_ne_nil _ h2.ne_nil, h2.last]

theorem Path.glue_eq {R : K → K → Prop} {p q r : K} {l1 l2 : List K} (h1 : Path R p q l1) (h2 : Path R q r l2) : l1.dropLast ++ l2 = l1 ++ l2.tail := by
  have e1 := h1.concat
  have e2 := h2.cons
  conv => rhs; rw [e1]
  rw [List.append_assoc]
  conv => lhs; rw [e2]
  rfl

theorem Path.mem_first {R : K → K → Prop} {p q : K} {l : List K} (h : Path R p q l) : p ∈ l := by rw [h.cons]; exact List.mem_cons_self
theorem Path.mem_last {R : K → K → Prop} {p q : K} {l : List K} (h : Path R p q l) : q ∈ l := by rw [h.concat]; simp

theorem Path.pairwise {R : K → K → Prop} {p q : K} {l : List K} (h : Path R p q l) (hR : ∀ a b, R a b → a < b) : l.Pairwise (· < ·) :=
  List.isChain_iff_pairwise.1 (h.chain.imp hR)

theorem Path.le_last {R : K → K → Prop} {p q : K} {l : List K} (h : Path R p q l) (hR : ∀ a b, R a b → a < b) {x : K} (hx : x ∈ l) : p ≤ x ∧ x ≤ q := by
  have hp := h.pairwise hR
  constructor
  · rw [h.cons] at hp hx
    rcases List.mem_cons.1 hx with rfl | hx
    · exact le_rfl
    · exact (List.rel_of_pairwise_cons hp hx).le
  · rw [h.concat] at hp hx
    rcases List.mem_append.1 hx with hx | hx
    · exact ((List.pairwise_append.1 hp).2.2 x hx q (by simp)).le
    · rw [List.mem_singleton.1 hx]

/-- Equidistant points. -/
theorem linspace_path (p q : K) {k : Nat} (hk : 1 ≤ k) : Path (fun x y => y = x + (q - p) / k) p q (linspace p q (k + 1)) := by
  have hk0 : (k : K) ≠ 0 := by exact_mod_cast (by omega : k ≠ 0)
  refine ⟨?_, ?_, ?_⟩
  · unfold linspace
    rw [List.isChain_map, List.isChain_range_succ]
    intro m _
    push_cast
    rw [show (k : K) + 1 - 1 = k by ring]
    ring
  · unfold linspace
    rw [List.range_succ_eq_map]
    simp
  · unfold linspace
    rw [List.range_succ, List.map_append, List.getLast?_append]
    simp only [List.map_cons, List.map_nil, List.getLast?_singleton, Option.some_or, Option.some.injEq]
    push_cast
    rw [show (k : K) + 1 - 1 = k by ring, mul_div_cancel₀ _ hk0]
    ring

theorem linspace_single (p : K) (R : K → K → Prop) : Path R p p (linspace p p 1) := by
  refine ⟨?_, ?_, ?_⟩ <;> simp [linspace, List.range_succ]

variable [FloorRing K]

theorem innerCells_spec {a b h : K} (hab : a < b) (hh : 0 < h) : 1 ≤ innerCells a b h ∧ b - a ≤ (innerCells a b h : K) * h := by
  have hd : 0 < (b - a) / h := div_pos (by linarith) hh
  have f1 : (⌊(b - a) / h⌋ : K) ≤ (b - a) / h := Int.floor_le _
  have f2 : (b - a) / h < (⌊(b - a) / h⌋ : K) + 1 := Int.lt_floor_add_one _
  have f3 : 0 ≤ ⌊(b - a) / h⌋ := Int.floor_nonneg.2 hd.le
  rw [div_lt_iff₀ hh] at f2
  unfold innerCells trunc
  rw [if_pos hd.le]
  dsimp only
  split_ifs with hlt
  · refine ⟨by omega, ?_⟩
    push_cast
    linarith
  · refine ⟨?_, not_lt.1 hlt⟩
    by_contra hc
    have : ⌊(b - a) / h⌋ = 0 := by omega
    rw [this] at hlt
    simp at hlt
    linarith

theorem outerCells_spec {eps horizon hi : K} (he : 0 < eps) (hh : 0 ≤ horizon) (hi0 : 0 < hi) :
    0 ≤ outerCells eps horizon hi ∧ horizon - eps ≤ (outerCells eps horizon hi : K) * hi ∧ (outerCells eps horizon hi : K) * hi < horizon + hi ∧
      horizon < ((outerCells eps horizon hi : K) * hi) + hi := by
  have hd : 0 ≤ horizon / hi := div_nonneg hh hi0.le
  have f1 : (⌊horizon / hi⌋ : K) ≤ horizon / hi := Int.floor_le _
  have f2 : horizon / hi < (⌊horizon / hi⌋ : K) + 1 := Int.lt_floor_add_one _
  have f3 : 0 ≤ ⌊horizon / hi⌋ := Int.floor_nonneg.2 hd
  rw [le_div_iff₀ hi0] at f1
  rw [div_lt_iff₀ hi0] at f2
  unfold outerCells trunc
  rw [if_pos hd]
  dsimp only
  split_ifs with hlt
  · refine ⟨by omega, ?_, ?_, ?_⟩ <;> push_cast <;> linarith
  · refine ⟨f3, not_lt.1 hlt, ?_, ?_⟩ <;> linarith

theorem getNumCells_zero {eps h : K} (he : 0 < eps) (heh : eps < h) (p : K) : getNumCells eps h p p = 0 := by
  unfold getNumCells
  rw [Int.ceil_eq_zero_iff]
  have hh : 0 < h := by linarith
  constructor
  · rw [lt_div_iff₀ hh]; linarith
  · rw [div_le_iff₀ hh]; linarith

theorem getNumCells_pos {eps h p q : K} (hh : 0 < h) (hpq : p + eps < q) :
    1 ≤ getNumCells eps h p q ∧ q - p - eps ≤ (getNumCells eps h p q : K) * h := by
  unfold getNumCells
  constructor
  · have : 0 < ⌈(q - p - eps) / h⌉ := Int.ceil_pos.2 (div_pos (by linarith) hh)
    omega
  · have := Int.le_ceil ((q - p - eps) / h)
    rwa [div_le_iff₀ hh] at this

/-- One piece. -/
theorem piece_path {eps h p q : K} (he : 0 < eps) (heh : eps < h) (hpq : p = q ∨ p + eps < q) :
    ∃ l, linspaceInt p q (getNumCells eps h p q) = some l ∧ Path (fun x y => x < y ∧ y - x ≤ h + eps) p q l := by
  have hh : 0 < h := by linarith
  rcases hpq with rfl | hpq
  · rw [getNumCells_zero he heh]
    exact ⟨linspace p p 1, rfl, linspace_single p _⟩
  · obtain ⟨k1, k2⟩ := getNumCells_pos hh hpq
    generalize getNumCells eps h p q = k at k1 k2
    unfold linspaceInt
    rw [if_neg (by omega)]
    refine ⟨_, rfl, ?_⟩
    obtain ⟨n, rfl⟩ : ∃ n : Nat, k = n := ⟨k.toNat, by omega⟩
    have hn : 1 ≤ n := by omega
    have hn' : (1 : K) ≤ n := by exact_mod_cast hn
    rw [show ((n : Int) + 1).toNat = n + 1 by omega]
    refine (linspace_path p q hn).mono fun x y e => ?_
    have hpos : 0 < (q - p) / n := div_pos (by linarith) (by linarith)
    have hle : (q - p) / n ≤ h + eps := by
      rw [div_le_iff₀ (by linarith)]
      rw [Int.cast_natCast] at k2
      nlinarith
    rw [e]
    constructor <;> linarith

theorem morePieces_path {eps h : K} (he : 0 < eps) (heh : eps < h) :
    ∀ (p : K) (l : List K), (p :: l).IsChain (fun p q => p = q ∨ p + eps < q) →
      ∃ r, morePieces eps h (p :: l) = some r ∧ Path (fun x y => x < y ∧ y - x ≤ h + eps) p ((p :: l).getLast (by simp)) (p :: r) ∧ ∀ x ∈ p :: l, x ∈ p :: r := by
  intro p l
  induction l generalizing p with
  | nil => intro _; exact ⟨[], rfl, ⟨by simp, rfl, rfl⟩, fun x hx => hx⟩
  | cons q l ih =>
    intro hc
    rw [List.isChain_cons_cons] at hc
    obtain ⟨s, hs, ps⟩ := piece_path he heh hc.1
    obtain ⟨r, hr, pr, hm⟩ := ih q hc.2
    refine ⟨s.tail ++ r, ?_, ?_, ?_⟩
    · unfold morePieces
      rw [hs, hr]
      rfl
    · have := ps.glue pr
      rw [List.tail_cons] at this
      rw [← List.cons_append, ← ps.cons]
      rwa [List.getLast_cons (by simp)]
    · intro x hx
      rw [← List.cons_append, ← ps.cons]
      rcases List.mem_cons.1 hx with rfl | hx
      · exact List.mem_append_left _ ps.mem_first
      · rcases List.mem_cons.1 (hm x hx) with rfl | h
        · exact List.mem_append_left _ ps.mem_last
        · exact List.mem_append_right _ h

theorem pieces_eq (eps h : K) (p q : K) (l : List K) (r s : List K) (hs : linspaceInt p q (getNumCells eps h p q) = some s)
    (hr : morePieces eps h (q :: l) = some r) : pieces eps h (p :: q :: l) = some (s ++ r) := by
  unfold pieces
  dsimp only
  rw [hs, hr]
  rfl

theorem pieces_path {eps h : K} (he : 0 < eps) (heh : eps < h) (p q : K) (l : List K) (hc : (p :: q :: l).IsChain (fun p q => p = q ∨ p + eps < q)) :
    ∃ r, pieces eps h (p :: q :: l) = some r ∧ Path (fun x y => x < y ∧ y - x ≤ h + eps) p ((p :: q :: l).getLast (by simp)) r ∧ ∀ x ∈ p :: q :: l, x ∈ r := by
  rw [List.isChain_cons_cons] at hc
  obtain ⟨s, hs, ps⟩ := piece_path he heh hc.1
  obtain ⟨r, hr, pr, hm⟩ := morePieces_path he heh q l hc.2
  refine ⟨s ++ r, pieces_eq eps h p q l r s hs hr, ?_, ?_⟩
  · have := ps.glue pr
    rw [List.tail_cons] at this
    rwa [List.getLast_cons (by simp)]
  · intro x hx
    rcases List.mem_cons.1 hx with rfl | hx
    · exact List.mem_append_left _ ps.mem_first
    · rcases List.mem_cons.1 (hm x hx) with rfl | h
      · exact List.mem_append_left _ ps.mem_last
      · exact List.mem_append_right _ h

end Uniform

/-! Graded meshes. -/

theorem foldl_put (f : Nat → Nat) (v : Nat → ℝ) (p : Nat → ℝ) (i : Nat) : ∀ n, (∀ j, j < n → ∀ j', j' < n → f j = f j' → j = j') →
    (∀ j, j < n → f j = i → (List.range n).foldl (fun p j => put p (f j) (v j)) p i = v j) ∧
      ((∀ j, j < n → f j ≠ i) → (List.range n).foldl (fun p j => put p (f j) (v j)) p i = p i) := by
  intro n
  induction n with
  | zero => intro _; exact ⟨fun j hj => by omega, fun _ => rfl⟩
  | succ n ih =>
    intro hinj
    obtain ⟨h1, h2⟩ := ih fun j hj j' hj' => hinj j (by omega) j' (by omega)
    rw [List.range_succ, List.foldl_append]
    simp only [List.foldl_cons, List.foldl_nil, put]
    constructor
    · intro j hj e
      by_cases hjn : j = n
      · subst hjn; rw [if_pos e.symm]
      · rw [if_neg, h1 j (by omega) e]
        intro hi
        exact hjn (hinj j hj n (by omega) (e.trans hi))
    · intro h
      rw [if_neg (fun hi => h n (by omega) hi.symm), h2 fun j hj => h j (by omega)]

/-- The points of one interval, counted from its left end. -/
noncomputable def gval (I : Interval) (M : Nat × Nat) (i : Nat) : ℝ :=
  if i < M.1 then center I M - radius I M * (1 - (1 - ((M.1 - i : Nat) : ℝ) / (M.1 : ℝ)) ^ I.mu1.getD 1)
  else if i = M.1 then center I M
  else center I M + radius I M * (1 - (1 - ((i - M.1 : Nat) : ℝ) / (M.2 : ℝ)) ^ I.mu2.getD 1)

theorem putInterval_apply (p : Nat → ℝ) (off : Nat) (I : Interval) (M : Nat × Nat) (j : Nat) :
    putInterval p off I M j = if off ≤ j ∧ j ≤ off + M.1 + M.2 then gval I M (j - off) else p j := by
  unfold putInterval
  obtain ⟨a1, a2⟩ := foldl_put (fun j => off + M.1 + (j + 1)) (fun j => center I M + radius I M * (1 - (1 - ((j + 1 : Nat) : ℝ) / (M.2 : ℝ)) ^ I.mu2.getD 1))
    ((List.range M.1).foldl (fun p j => put p (off + M.1 - (j + 1)) (center I M - radius I M * (1 - (1 - ((j + 1 : Nat) : ℝ) / (M.1 : ℝ)) ^ I.mu1.getD 1)))
      (put p (off + M.1) (center I M))) j M.2 (fun j _ j' _ h => by omega)
  obtain ⟨b1, b2⟩ := foldl_put (fun j => off + M.1 - (j + 1)) (fun j => center I M - radius I M * (1 - (1 - ((j + 1 : Nat) : ℝ) / (M.1 : ℝ)) ^ I.mu1.getD 1))
    (put p (off + M.1) (center I M)) j M.1 (fun j _ j' _ h => by omega)
  by_cases h : off ≤ j ∧ j ≤ off + M.1 + M.2
  · rw [if_pos h]
    unfold gval
    split_ifs with h1 h2
    · rw [a2 (fun j' _ => by omega), b1 (off + M.1 - j - 1) (by omega) (by omega)]
      rw [show off + M.1 - j - 1 + 1 = M.1 - (j - off) by omega]
    · rw [a2 (fun j' _ => by omega), b2 (fun j' _ => by omega)]
      unfold put
      rw [if_pos (by omega)]
    · rw [a1 (j - off - M.1 - 1) (by omega) (by omega)]
      rw [show j - off - M.1 - 1 + 1 = j - off - M.1 by omega]
  · rw [if_neg h, a2 (fun j' _ => by omega), b2 (fun j' _ => by omega)]
    unfold put
    rw [if_neg (by omega)]

/-- Intervals with sensible exponents and numbers of cells. -/
structure Good (I : Interval) (M : Nat × Nat) : Prop where
  lt : I.a < I.b
  some1 : 0 < M.1 ↔ I.mu1.isSome = true
  some2 : 0 < M.2 ↔ I.mu2.isSome = true
  pos : 0 < M.1 + M.2
  pos1 : ∀ mu, I.mu1 = some mu → 0 < mu
  pos2 : ∀ mu, I.mu2 = some mu → 0 < mu

theorem Good.radius_pos {I : Interval} {M : Nat × Nat} (h : Good I M) : 0 < radius I M := by
  have := h.lt
  unfold radius
  split_ifs <;> linarith

theorem Good.exp1 {I : Interval} {M : Nat × Nat} (h : Good I M) : 0 < I.mu1.getD 1 := by
  cases e : I.mu1 with
  | none => simp
  | some mu => exact h.pos1 mu e

theorem Good.exp2 {I : Interval} {M : Nat × Nat} (h : Good I M) : 0 < I.mu2.getD 1 := by
  cases e : I.mu2 with
  | none => simp
  | some mu => exact h.pos2 mu e

theorem Good.left {I : Interval} {M : Nat × Nat} (h : Good I M) : 0 < M.1 → center I M - radius I M = I.a := by
  intro h1
  unfold center radius
  split_ifs with h2 h3
  · ring
  · omega
  · ring

theorem Good.right {I : Interval} {M : Nat × Nat} (h : Good I M) : 0 < M.2 → center I M + radius I M = I.b := by
  intro h1
  unfold center radius
  split_ifs with h2 h3
  · ring
  · ring
  · omega

theorem gval_zero {I : Interval} {M : Nat × Nat} (h : Good I M) : gval I M 0 = I.a := by
  unfold gval
  by_cases h1 : 0 < M.1
  · have hM : (M.1 : ℝ) ≠ 0 := by exact_mod_cast h1.ne'
    rw [if_pos h1, Nat.sub_zero, div_self hM, sub_self, Real.zero_rpow h.exp1.ne', sub_zero, mul_one, h.left h1]
  · rw [if_neg h1, if_pos (by omega)]
    unfold center
    rw [if_neg (by omega), if_pos (by omega)]

theorem gval_end {I : Interval} {M : Nat × Nat} (h : Good I M) : gval I M (M.1 + M.2) = I.b := by
  unfold gval
  rw [if_neg (by omega)]
  by_cases h2 : 0 < M.2
  · have hM : (M.2 : ℝ) ≠ 0 := by exact_mod_cast h2.ne'
    rw [if_neg (by omega), Nat.add_sub_cancel_left, div_self hM, sub_self, Real.zero_rpow h.exp2.ne', sub_zero, mul_one, h.right h2]
  · have := h.pos
    rw [if_pos (by omega)]
    unfold center
    rw [if_neg (by omega), if_neg (by omega)]

/-- The two halves in terms of a parameter: `i` cells from the left end. -/
theorem gval_left {I : Interval} {M : Nat × Nat} {i : Nat} (hi : i ≤ M.1) (h1 : 0 < M.1) :
    gval I M i = center I M - radius I M * (1 - ((i : ℝ) / M.1) ^ I.mu1.getD 1) := by
  have hM : (M.1 : ℝ) ≠ 0 := by exact_mod_cast h1.ne'
  unfold gval
  split_ifs with a b
  · rw [Nat.cast_sub hi, show 1 - ((M.1 : ℝ) - i) / M.1 = (i : ℝ) / M.1 by field_simp; ring]
  · rw [b, div_self hM, Real.one_rpow]; ring
  · omega

theorem gval_right {I : Interval} {M : Nat × Nat} {i : Nat} (hi : i ≤ M.2) (h2 : 0 < M.2) :
    gval I M (M.1 + i) = center I M + radius I M * (1 - (1 - (i : ℝ) / M.2) ^ I.mu2.getD 1) := by
  unfold gval
  rw [if_neg (by omega)]
  split_ifs with b
  · have : i = 0 := by omega
    subst this
    simp
  · rw [Nat.add_sub_cancel_left]

theorem gval_lt {I : Interval} {M : Nat × Nat} (h : Good I M) {i : Nat} (hi : i < M.1 + M.2) : gval I M i < gval I M (i + 1) := by
  have hr := h.radius_pos
  rcases Nat.lt_or_ge i M.1 with h1 | h1
  · have hM : (0 : ℝ) < M.1 := by exact_mod_cast (by omega : 0 < M.1)
    rw [gval_left (by omega) (by omega), gval_left (by omega) (by omega)]
    have : ((i : ℝ) / M.1) ^ I.mu1.getD 1 < (((i + 1 : Nat) : ℝ) / M.1) ^ I.mu1.getD 1 := by
      apply Real.rpow_lt_rpow (by positivity) _ h.exp1
      apply div_lt_div_of_pos_right _ hM
      push_cast; linarith
    nlinarith
  · obtain ⟨j, rfl⟩ := Nat.exists_eq_add_of_le h1
    have hM : (0 : ℝ) < M.2 := by exact_mod_cast (by omega : 0 < M.2)
    rw [Nat.add_assoc, gval_right (by omega) (by omega), gval_right (by omega) (by omega)]
    have : (1 - ((j + 1 : Nat) : ℝ) / M.2) ^ I.mu2.getD 1 < (1 - (j : ℝ) / M.2) ^ I.mu2.getD 1 := by
      apply Real.rpow_lt_rpow _ _ h.exp2
      · rw [sub_nonneg, div_le_one hM]
        exact_mod_cast (by omega : j + 1 ≤ M.2)
      · have : (j : ℝ) / M.2 < ((j + 1 : Nat) : ℝ) / M.2 := by
          apply div_lt_div_of_pos_right _ hM
          push_cast; linarith
        linarith
    nlinarith

theorem gval_le {I : Interval} {M : Nat × Nat} (h : Good I M) {i : Nat} (hi : i ≤ M.1 + M.2) : I.a ≤ gval I M i ∧ gval I M i ≤ I.b := by
  constructor
  · induction i with
    | zero => rw [gval_zero h]
    | succ i ih => exact le_trans (ih (by omega)) (gval_lt h (by omega)).le
  · obtain ⟨k, hk⟩ := Nat.exists_eq_add_of_le hi
    have : ∀ k i, M.1 + M.2 = i + k → gval I M i ≤ I.b := by
      intro k
      induction k with
      | zero => intro i e; rw [Nat.add_zero] at e; rw [← e, gval_end h]
      | succ k ih => intro i e; exact le_trans (gval_lt h (by omega)).le (ih (i + 1) (by omega))
    exact this k i hk

/-- Adjacent intervals with sensible data. -/
def Adj (l : List (Interval × Nat × Nat)) : Prop := (∀ x ∈ l, Good x.1 x.2) ∧ l.IsChain fun x y => x.1.b = y.1.a

theorem Adj.tail {x : Interval × Nat × Nat} {l : List (Interval × Nat × Nat)} (h : Adj (x :: l)) : Adj l :=
  ⟨fun y hy => h.1 y (List.mem_cons_of_mem _ hy), h.2.tail⟩

/-- All points, counted from the left end. -/
noncomputable def G : List (Interval × Nat × Nat) → Nat → ℝ
  | [], _ => 0
  | (I, M) :: l, i => if i ≤ M.1 + M.2 then gval I M i else G l (i - (M.1 + M.2))

theorem G_zero {I : Interval} {M : Nat × Nat} {l : List (Interval × Nat × Nat)} (h : Adj ((I, M) :: l)) : G ((I, M) :: l) 0 = I.a := by
  unfold G
  rw [if_pos (by omega), gval_zero (h.1 _ List.mem_cons_self)]

theorem G_add {I : Interval} {M : Nat × Nat} {y : Interval × Nat × Nat} {l : List (Interval × Nat × Nat)} (h : Adj ((I, M) :: y :: l)) (i : Nat) :
    G ((I, M) :: y :: l) (M.1 + M.2 + i) = G (y :: l) i := by
  conv => lhs; unfold G
  split_ifs with hi
  · have : i = 0 := by omega
    subst this
    rw [Nat.add_zero, gval_end (h.1 _ List.mem_cons_self), G_zero h.tail]
    have := h.2
    rw [List.isChain_cons_cons] at this
    exact this.1
  · rw [Nat.add_sub_cancel_left]

theorem putAll_below (p : Nat → ℝ) (off : Nat) (l : List (Interval × Nat × Nat)) : ∀ j, j < off → putAll p off l j = p j := by
  induction l generalizing p off with
  | nil => intro j _; rfl
  | cons x l ih =>
    obtain ⟨I, M⟩ := x
    intro j hj
    unfold putAll
    rw [ih _ _ j (by omega), putInterval_apply, if_neg (by omega)]

theorem putAll_eq (p : Nat → ℝ) (off : Nat) (l : List (Interval × Nat × Nat)) (h : Adj l) (hl : l ≠ []) : ∀ i, i ≤ total l → putAll p off l (off + i) = G l i := by
  induction l generalizing p off with
  | nil => exact absurd rfl hl
  | cons x l ih =>
    obtain ⟨I, M⟩ := x
    intro i hi
    unfold putAll
    rcases Nat.lt_or_ge i (M.1 + M.2) with hlt | hge
    · rw [putAll_below _ _ _ _ (by omega), putInterval_apply, if_pos (by omega), Nat.add_sub_cancel_left]
      unfold G
      rw [if_pos (by omega)]
    · cases l with
      | nil =>
        simp only [total] at hi
        unfold putAll
        rw [putInterval_apply, if_pos (by omega), Nat.add_sub_cancel_left]
        unfold G
        rw [if_pos (by omega)]
      | cons y l =>
        obtain ⟨k, rfl⟩ := Nat.exists_eq_add_of_le hge
        have hk : k ≤ total (y :: l) := by
          simp only [total] at hi ⊢
          omega
        rw [show off + (M.1 + M.2 + k) = off + M.1 + M.2 + k by omega, ih _ _ h.tail (by simp) k hk, G_add h]

theorem gradedPoints_eq {l : List (Interval × Nat × Nat)} (h : Adj l) (hl : l ≠ []) {i : Nat} (hi : i ≤ total l) : gradedPoints l i = G l i := by
  have := putAll_eq (fun _ => 0) 0 l h hl i hi
  rwa [Nat.zero_add] at this

theorem G_lt {l : List (Interval × Nat × Nat)} (h : Adj l) : ∀ i, i < total l → G l i < G l (i + 1) := by
  induction l with
  | nil => intro i hi; simp [total] at hi
  | cons x l ih =>
    obtain ⟨I, M⟩ := x
    intro i hi
    rcases Nat.lt_or_ge i (M.1 + M.2) with hlt | hge
    · unfold G
      rw [if_pos (by omega), if_pos (by omega)]
      exact gval_lt (h.1 _ List.mem_cons_self) hlt
    · cases l with
      | nil => simp only [total] at hi; omega
      | cons y l =>
        obtain ⟨k, rfl⟩ := Nat.exists_eq_add_of_le hge
        rw [Nat.add_assoc (M.1 + M.2) k 1, G_add h, G_add h]
        apply ih h.tail
        simp only [total] at hi ⊢
        omega

theorem G_ge {I : Interval} {M : Nat × Nat} {l : List (Interval × Nat × Nat)} (h : Adj ((I, M) :: l)) : ∀ i, i ≤ total ((I, M) :: l) → I.a ≤ G ((I, M) :: l) i := by
  intro i
  induction i with
  | zero => intro _; rw [G_zero h]
  | succ i ih => intro hi; exact le_trans (ih (by omega)) (G_lt h i (by omega)).le

theorem G_last {l : List (Interval × Nat × Nat)} (h : Adj l) (hl : l ≠ []) : G l (total l) = (l.getLast hl).1.b := by
  induction l with
  | nil => exact absurd rfl hl
  | cons x l ih =>
    obtain ⟨I, M⟩ := x
    cases l with
    | nil =>
      simp only [total, Nat.add_zero, List.getLast_singleton]
      unfold G
      rw [if_pos le_rfl, gval_end (h.1 _ List.mem_cons_self)]
    | cons y l =>
      rw [List.getLast_cons (by simp), ← ih h.tail (by simp), ← G_add h]
      rfl

theorem G_mem {l : List (Interval × Nat × Nat)} (h : Adj l) : ∀ x ∈ l, ∃ i j, i < j ∧ j ≤ total l ∧ G l i = x.1.a ∧ G l j = x.1.b := by
  induction l with
  | nil => simp
  | cons y l ih =>
    obtain ⟨I, M⟩ := y
    intro x hx
    rcases List.mem_cons.1 hx with rfl | hx
    · have hg := h.1 _ List.mem_cons_self
      refine ⟨0, M.1 + M.2, hg.pos, by simp only [total]; omega, G_zero h, ?_⟩
      unfold G
      rw [if_pos le_rfl, gval_end hg]
    · obtain ⟨i, j, hij, hj, e1, e2⟩ := ih h.tail x hx
      cases l with
      | nil => simp at hx
      | cons y l =>
        refine ⟨M.1 + M.2 + i, M.1 + M.2 + j, by omega, by simp only [total] at hj ⊢; omega, ?_, ?_⟩
        · rw [G_add h, e1]
        · rw [G_add h, e2]

/-! Refinement. -/

/-- Twice as many cells. -/
def dbl (x : Interval × Nat × Nat) : Interval × Nat × Nat := (x.1, 2 * x.2.1, 2 * x.2.2)

theorem Good.dbl {I : Interval} {M : Nat × Nat} (h : Good I M) : Good I (2 * M.1, 2 * M.2) := by
  refine ⟨h.lt, ?_, ?_, ?_, h.pos1, h.pos2⟩
  · rw [← h.some1]; dsimp only; omega
  · rw [← h.some2]; dsimp only; omega
  · have := h.pos; dsimp only; omega

theorem radius_dbl (I : Interval) (M : Nat × Nat) : radius I (2 * M.1, 2 * M.2) = radius I M := by
  unfold radius
  simp
theorem center_dbl (I : Interval) (M : Nat × Nat) : center I (2 * M.1, 2 * M.2) = center I M := by
  unfold center
  simp

theorem gval_dbl {I : Interval} {M : Nat × Nat} (h : Good I M) {i : Nat} (hi : i ≤ M.1 + M.2) : gval I (2 * M.1, 2 * M.2) (2 * i) = gval I M i := by
  rcases Nat.lt_or_ge i M.1 with h1 | h1
  · have hM : (M.1 : ℝ) ≠ 0 := by exact_mod_cast (by omega : M.1 ≠ 0)
    rw [gval_left (by dsimp only; omega) (by dsimp only; omega), gval_left (by omega) (by omega), radius_dbl, center_dbl]
    dsimp only
    push_cast
    rw [mul_div_mul_left _ _ (by norm_num : (2 : ℝ) ≠ 0)]
  · obtain ⟨j, rfl⟩ := Nat.exists_eq_add_of_le h1
    by_cases h2 : 0 < M.2
    · rw [show 2 * (M.1 + j) = (2 * M.1, 2 * M.2).1 + 2 * j by dsimp only; omega, gval_right (by dsimp only; omega) (by dsimp only; omega),
        gval_right (by omega) (by omega), radius_dbl, center_dbl]
      dsimp only
      push_cast
      rw [mul_div_mul_left _ _ (by norm_num : (2 : ℝ) ≠ 0)]
    · have : j = 0 := by omega
      subst this
      unfold gval
      rw [if_neg (by dsimp only; omega), if_pos (by dsimp only; omega), if_neg (by omega), if_pos (by omega), center_dbl]

theorem halfway_eq {r mu s t : ℝ} (hr : 0 < r) (hmu : 0 < mu) (hs : 0 ≤ s) (ht : 0 ≤ t) :
    halfway r mu (r * (1 - s ^ mu)) (r * (1 - t ^ mu)) = 1 - (s + t) / 2 := by
  have key : ∀ {s : ℝ}, 0 ≤ s → (1 - r * (1 - s ^ mu) / r) ^ (1 / mu) = s := by
    intro s hs
    rw [mul_div_cancel_left₀ _ hr.ne', sub_sub_cancel, ← Real.rpow_mul hs, mul_one_div_cancel hmu.ne', Real.rpow_one]
  unfold halfway
  dsimp only
  rw [key hs, key ht]
  ring

theorem moveIn_eq {I : Interval} {M : Nat × Nat} (h : Good I M) {i : Nat} (hi : i < M.1 + M.2) :
    moveIn I ((gval I M i + gval I M (i + 1)) / 2) (gval I M i) (gval I M (i + 1)) = some (gval I (2 * M.1, 2 * M.2) (2 * i + 1)) := by
  have hr := h.radius_pos
  have hlt := gval_lt h hi
  have one_le : ∀ {x mu : ℝ}, 0 < mu → 0 ≤ x → x ≤ 1 → 0 ≤ 1 - x ^ mu := fun hmu h0 h1 => by
    have := Real.rpow_le_one h0 h1 hmu.le
    linarith
  rcases Nat.lt_or_ge i M.1 with h1 | h1
  · have hM : (0 : ℝ) < M.1 := by exact_mod_cast (by omega : 0 < M.1)
    obtain ⟨mu1, e1⟩ := Option.isSome_iff_exists.1 (h.some1.1 (by omega))
    have hmu := h.pos1 mu1 e1
    have v0 : gval I M i = center I M - radius I M * (1 - ((i : ℝ) / M.1) ^ mu1) := by
      rw [gval_left (by omega) (by omega), e1]; rfl
    have v1 : gval I M (i + 1) = center I M - radius I M * (1 - (((i + 1 : Nat) : ℝ) / M.1) ^ mu1) := by
      rw [gval_left (by omega) (by omega), e1]; rfl
    have vm : gval I (2 * M.1, 2 * M.2) (2 * i + 1) = center I M - radius I M * (1 - (((2 * i + 1 : Nat) : ℝ) / ((2 * M.1 : Nat) : ℝ)) ^ mu1) := by
      rw [gval_left (by dsimp only; omega) (by dsimp only; omega), e1, radius_dbl, center_dbl]; rfl
    have i0 : 0 ≤ (i : ℝ) / M.1 := by positivity
    have i0' : 0 ≤ ((i + 1 : Nat) : ℝ) / M.1 := by positivity
    have i1 : (i : ℝ) / M.1 ≤ 1 := by rw [div_le_one hM]; exact_mod_cast h1.le
    have i1' : ((i + 1 : Nat) : ℝ) / M.1 ≤ 1 := by rw [div_le_one hM]; exact_mod_cast h1
    have a0 : |gval I M i - center I M| = radius I M * (1 - ((i : ℝ) / M.1) ^ mu1) := by
      rw [v0, abs_of_nonpos (by nlinarith [one_le hmu i0 i1])]; ring
    have a1 : |gval I M (i + 1) - center I M| = radius I M * (1 - (((i + 1 : Nat) : ℝ) / M.1) ^ mu1) := by
      rw [v1, abs_of_nonpos (by nlinarith [one_le hmu i0' i1'])]; ring
    have hh := halfway_eq hr hmu i0 i0'
    have hm : 1 - (1 - ((i : ℝ) / M.1 + ((i + 1 : Nat) : ℝ) / M.1) / 2) = ((2 * i + 1 : Nat) : ℝ) / ((2 * M.1 : Nat) : ℝ) := by
      push_cast
      field_simp
      ring
    have final : center I M - radius I M * (1 - (1 - halfway (radius I M) mu1 |gval I M i - center I M| |gval I M (i + 1) - center I M|) ^ mu1) =
        gval I (2 * M.1, 2 * M.2) (2 * i + 1) := by
      rw [a0, a1, hh, hm, vm]
    have hlc : gval I M (i + 1) ≤ center I M := by rw [v1]; nlinarith [one_le hmu i0' i1']
    cases e2 : I.mu2 with
    | none =>
      have hz : M.2 = 0 := by
        by_contra hne
        have := h.some2.1 (by omega)
        rw [e2] at this
        simp at this
      have cb : center I M = I.b := by unfold center; rw [if_neg (by omega), if_neg (by omega)]
      have rb : radius I M = I.b - I.a := by unfold radius; rw [if_neg (by omega)]
      unfold moveIn
      rw [e1, e2]
      dsimp only
      rw [← final, cb, rb]
    | some mu2 =>
      have hp2 : 0 < M.2 := h.some2.2 (by rw [e2]; rfl)
      have cb : center I M = 1 / 2 * (I.a + I.b) := by unfold center; rw [if_pos ⟨by omega, hp2⟩]
      have rb : radius I M = 1 / 2 * (I.b - I.a) := by unfold radius; rw [if_pos ⟨by omega, hp2⟩]
      unfold moveIn
      rw [e1, e2]
      dsimp only
      rw [if_pos (by rw [← cb]; linarith), ← final, cb, rb]
  · obtain ⟨j, rfl⟩ := Nat.exists_eq_add_of_le h1
    have hM : (0 : ℝ) < M.2 := by exact_mod_cast (by omega : 0 < M.2)
    obtain ⟨mu2, e2⟩ := Option.isSome_iff_exists.1 (h.some2.1 (by omega))
    have hmu := h.pos2 mu2 e2
    have v0 : gval I M (M.1 + j) = center I M + radius I M * (1 - (1 - (j : ℝ) / M.2) ^ mu2) := by
      rw [gval_right (by omega) (by omega), e2]; rfl
    have v1 : gval I M (M.1 + j + 1) = center I M + radius I M * (1 - (1 - ((j + 1 : Nat) : ℝ) / M.2) ^ mu2) := by
      rw [Nat.add_assoc, gval_right (by omega) (by omega), e2]; rfl
    have vm : gval I (2 * M.1, 2 * M.2) (2 * (M.1 + j) + 1) =
        center I M + radius I M * (1 - (1 - ((2 * j + 1 : Nat) : ℝ) / ((2 * M.2 : Nat) : ℝ)) ^ mu2) := by
      rw [show 2 * (M.1 + j) + 1 = (2 * M.1, 2 * M.2).1 + (2 * j + 1) by dsimp only; omega, gval_right (by dsimp only; omega) (by dsimp only; omega), e2,
        radius_dbl, center_dbl]; rfl
    have i1 : 1 - (j : ℝ) / M.2 ≤ 1 := by have : 0 ≤ (j : ℝ) / M.2 := by positivity
                                          linarith
    have i1' : 1 - ((j + 1 : Nat) : ℝ) / M.2 ≤ 1 := by have : 0 ≤ ((j + 1 : Nat) : ℝ) / M.2 := by positivity
                                                       linarith
    have i0 : 0 ≤ 1 - (j : ℝ) / M.2 := by rw [sub_nonneg, div_le_one hM]; exact_mod_cast (by omega : j ≤ M.2)
    have i0' : 0 ≤ 1 - ((j + 1 : Nat) : ℝ) / M.2 := by rw [sub_nonneg, div_le_one hM]; exact_mod_cast (by omega : j + 1 ≤ M.2)
    have a0 : |gval I M (M.1 + j) - center I M| = radius I M * (1 - (1 - (j : ℝ) / M.2) ^ mu2) := by
      rw [v0, add_sub_cancel_left, abs_of_nonneg (mul_nonneg hr.le (one_le hmu i0 i1))]
    have a1 : |gval I M (M.1 + j + 1) - center I M| = radius I M * (1 - (1 - ((j + 1 : Nat) : ℝ) / M.2) ^ mu2) := by
      rw [v1, add_sub_cancel_left, abs_of_nonneg (mul_nonneg hr.le (one_le hmu i0' i1'))]
    have hh := halfway_eq hr hmu i0 i0'
    have hm : 1 - (1 - (1 - (j : ℝ) / M.2 + (1 - ((j + 1 : Nat) : ℝ) / M.2)) / 2) = 1 - ((2 * j + 1 : Nat) : ℝ) / ((2 * M.2 : Nat) : ℝ) := by
      push_cast
      field_simp
      ring
    have final : center I M + radius I M * (1 - (1 - halfway (radius I M) mu2 |gval I M (M.1 + j) - center I M| |gval I M (M.1 + j + 1) - center I M|) ^ mu2) =
        gval I (2 * M.1, 2 * M.2) (2 * (M.1 + j) + 1) := by
      rw [a0, a1, hh, hm, vm]
    have hlc : center I M ≤ gval I M (M.1 + j) := by rw [v0]; nlinarith [one_le hmu i0 i1]
    cases e1 : I.mu1 with
    | none =>
      have hz : M.1 = 0 := by
        by_contra hne
        have := h.some1.1 (by omega)
        rw [e1] at this
        simp at this
      have cb : center I M = I.a := by unfold center; rw [if_neg (by omega), if_pos hz]
      have rb : radius I M = I.b - I.a := by unfold radius; rw [if_neg (by omega)]
      unfold moveIn
      rw [e1, e2]
      dsimp only
      rw [← final, cb, rb]
    | some mu1 =>
      have hp1 : 0 < M.1 := h.some1.2 (by rw [e1]; rfl)
      have cb : center I M = 1 / 2 * (I.a + I.b) := by unfold center; rw [if_pos ⟨hp1, by omega⟩]
      have rb : radius I M = 1 / 2 * (I.b - I.a) := by unfold radius; rw [if_pos ⟨hp1, by omega⟩]
      unfold moveIn
      rw [e1, e2]
      dsimp only
      rw [if_neg (by rw [← cb]; linarith), ← final, cb, rb]

theorem Adj.dbl {l : List (Interval × Nat × Nat)} (h : Adj l) : Adj (l.map dbl) := by
  constructor
  · intro x hx
    obtain ⟨y, hy, rfl⟩ := List.mem_map.1 hx
    exact (h.1 y hy).dbl
  · rw [List.isChain_map]
    exact h.2

theorem total_dbl (l : List (Interval × Nat × Nat)) : total (l.map dbl) = 2 * total l := by
  induction l with
  | nil => rfl
  | cons x l ih =>
    obtain ⟨I, M⟩ := x
    simp only [List.map_cons, total, dbl]
    rw [ih]
    omega

theorem G_dbl {l : List (Interval × Nat × Nat)} (h : Adj l) : ∀ i, i ≤ total l → G (l.map dbl) (2 * i) = G l i := by
  induction l with
  | nil => intro i _; rfl
  | cons x l ih =>
    obtain ⟨I, M⟩ := x
    intro i hi
    simp only [List.map_cons, dbl]
    unfold G
    dsimp only
    by_cases hle : i ≤ M.1 + M.2
    · rw [if_pos (by omega), if_pos hle, gval_dbl (h.1 _ List.mem_cons_self) hle]
    · rw [if_neg (by omega), if_neg hle, show 2 * i - (2 * M.1 + 2 * M.2) = 2 * (i - (M.1 + M.2)) by omega, ih h.tail]
      simp only [total] at hi
      omega

theorem move_eq {l : List (Interval × Nat × Nat)} (h : Adj l) : ∀ i, i < total l →
    move (l.map Prod.fst) ((G l i + G l (i + 1)) / 2) (G l i) (G l (i + 1)) = some (G (l.map dbl) (2 * i + 1)) := by
  induction l with
  | nil => intro i hi; simp [total] at hi
  | cons x l ih =>
    obtain ⟨I, M⟩ := x
    intro i hi
    have hg := h.1 _ List.mem_cons_self
    dsimp only at hg
    rw [List.map_cons]
    unfold move
    dsimp only
    have hlt := G_lt h i hi
    rcases Nat.lt_or_ge i (M.1 + M.2) with h1 | h1
    · have e0 : G ((I, M) :: l) i = gval I M i := by unfold G; rw [if_pos (by omega)]
      have e1 : G ((I, M) :: l) (i + 1) = gval I M (i + 1) := by unfold G; rw [if_pos (by omega)]
      rw [e0, e1] at hlt ⊢
      have b0 := gval_le hg (show i ≤ M.1 + M.2 by omega)
      have b1 := gval_le hg (show i + 1 ≤ M.1 + M.2 by omega)
      rw [if_pos ⟨by linarith, by linarith⟩, moveIn_eq hg h1]
      simp only [List.map_cons, dbl]
      unfold G
      rw [if_pos (by dsimp only; omega)]
    · cases l with
      | nil => simp only [total] at hi; omega
      | cons y l =>
        obtain ⟨k, rfl⟩ := Nat.exists_eq_add_of_le h1
        have hk : k < total (y :: l) := by simp only [total] at hi ⊢; omega
        have eA : I.b = y.1.a := by
          have := h.2
          rw [List.isChain_cons_cons] at this
          exact this.1
        rw [Nat.add_assoc (M.1 + M.2) k 1, G_add h, G_add h] at hlt ⊢
        have hge := G_ge h.tail k hk.le
        rw [if_neg (by intro hc; linarith [hc.2]), ih h.tail k hk]
        have hd := G_add (I := I) (M := (2 * M.1, 2 * M.2)) (y := dbl y) (l := l.map dbl) (by simpa [dbl] using h.dbl) (2 * k + 1)
        simp only [List.map_cons]
        rw [show 2 * (M.1 + M.2 + k) + 1 = (2 * M.1, 2 * M.2).1 + (2 * M.1, 2 * M.2).2 + (2 * k + 1) by dsimp only; omega]
        exact congrArg some hd.symm

/-! Mesh width. -/

theorem rpow_steps {mu : ℝ} (hmu : 1 ≤ mu) {u v d : ℝ} (hu : 0 ≤ u) (huv : u ≤ v) (hd : 0 ≤ d) : (u + d) ^ mu - u ^ mu ≤ (v + d) ^ mu - v ^ mu := by
  rcases eq_or_lt_of_le hd with rfl | hd
  · simp
  rcases eq_or_lt_of_le huv with rfl | huv
  · exact le_rfl
  have hc := convexOn_rpow hmu
  have hw : 0 < v + d - u := by linarith
  have h1 := hc.2 (show u ∈ Set.Ici 0 from hu) (show v + d ∈ Set.Ici (0 : ℝ) from by show 0 ≤ v + d; linarith)
    (show 0 ≤ (v - u) / (v + d - u) from div_nonneg (by linarith) hw.le) (show 0 ≤ d / (v + d - u) from div_nonneg hd.le hw.le)
    (by rw [← add_div, div_eq_one_iff_eq hw.ne']; ring)
  have h2 := hc.2 (show u ∈ Set.Ici 0 from hu) (show v + d ∈ Set.Ici (0 : ℝ) from by show 0 ≤ v + d; linarith)
    (show 0 ≤ d / (v + d - u) from div_nonneg hd.le hw.le) (show 0 ≤ (v - u) / (v + d - u) from div_nonneg (by linarith) hw.le)
    (by rw [← add_div, div_eq_one_iff_eq hw.ne']; ring)
  simp only [smul_eq_mul] at h1 h2
  rw [show (v - u) / (v + d - u) * u + d / (v + d - u) * (v + d) = u + d by field_simp; ring] at h1
  rw [show d / (v + d - u) * u + (v - u) / (v + d - u) * (v + d) = v by field_simp; ring] at h2
  have hs : (v - u) / (v + d - u) + d / (v + d - u) = 1 := by rw [← add_div, div_eq_one_iff_eq hw.ne']; ring
  have e1 : (v - u) / (v + d - u) = 1 - d / (v + d - u) := by linarith
  rw [e1] at h1 h2
  linarith

/-- The first cell next to the centre is at most `h` wide. -/
theorem gradedCount_spec {h r mu : ℝ} (hh : 0 < h) (hr : h ≤ r) (hmu : 0 < mu) : 1 ≤ gradedCount h r mu ∧ r * (1 - (1 - 1 / (gradedCount h r mu : ℝ)) ^ mu) ≤ h := by
  have hr0 : 0 < r := by linarith
  have b0 : 0 ≤ 1 - h / r := by rw [sub_nonneg, div_le_one hr0]; exact hr
  have b1 : 1 - h / r < 1 := by have := div_pos hh hr0; linarith
  have hp : (1 - h / r) ^ (1 / mu) < 1 := Real.rpow_lt_one b0 b1 (by positivity)
  have hq : 0 < 1 - (1 - h / r) ^ (1 / mu) := by linarith
  have hc : (gradedCount h r mu : ℤ) = max ⌈1 / (1 - (1 - h / r) ^ (1 / mu))⌉ 1 := by
    unfold gradedCount
    exact Int.toNat_of_nonneg (le_trans (by norm_num) (le_max_right _ _))
  have h1 : 1 ≤ gradedCount h r mu := by
    have : (1 : ℤ) ≤ gradedCount h r mu := by rw [hc]; exact le_max_right _ _
    omega
  refine ⟨h1, ?_⟩
  have hM : (0 : ℝ) < gradedCount h r mu := by exact_mod_cast h1
  have h2 : 1 / (1 - (1 - h / r) ^ (1 / mu)) ≤ gradedCount h r mu := by
    have a := Int.le_ceil (1 / (1 - (1 - h / r) ^ (1 / mu)))
    have b : (⌈1 / (1 - (1 - h / r) ^ (1 / mu))⌉ : ℤ) ≤ gradedCount h r mu := by rw [hc]; exact le_max_left _ _
    have b' : ((⌈1 / (1 - (1 - h / r) ^ (1 / mu))⌉ : ℤ) : ℝ) ≤ ((gradedCount h r mu : ℤ) : ℝ) := by exact_mod_cast b
    rw [Int.cast_natCast] at b'
    linarith
  have h3 : 1 / (gradedCount h r mu : ℝ) ≤ 1 - (1 - h / r) ^ (1 / mu) := by
    rw [div_le_iff₀ hq] at h2
    rw [div_le_iff₀ hM]
    linarith
  have h4 : (1 - h / r) ^ (1 / mu) ≤ 1 - 1 / (gradedCount h r mu : ℝ) := by linarith
  have h5 := Real.rpow_le_rpow (Real.rpow_nonneg b0 _) h4 hmu.le
  rw [← Real.rpow_mul b0, one_div_mul_cancel hmu.ne', Real.rpow_one] at h5
  have h6 : 1 - (1 - 1 / (gradedCount h r mu : ℝ)) ^ mu ≤ h / r := by linarith
  calc r * (1 - (1 - 1 / (gradedCount h r mu : ℝ)) ^ mu) ≤ r * (h / r) := mul_le_mul_of_nonneg_left h6 hr0.le
    _ = h := mul_div_cancel₀ _ hr0.ne'

end PyNucleus.IntervalMesh
