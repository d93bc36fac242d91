import Verif.Proof.IntervalMesh

/-!
# C87: meshes of intervals

`simpleInterval`, `intervalWithInteraction`, `doubleIntervalWithInteractions`, and `gradedIntervals` with its transformation of refined meshes.
-/

namespace PyNucleus.Props.C87

open IntervalMesh

/-- The vertices increase from `p` to `q` and the cells join neighbours. -/
structure IsMesh {K : Type} [LinearOrder K] (p q : K) (v : List K) (cells : List (List Nat)) : Prop where
  increasing : v.Pairwise (· < ·)
  first : v.head? = some p
  last : v.getLast? = some q
  cells : cells = (List.range (v.length - 1)).map fun i => [i, i + 1]

section
variable {K : Type} [Field K] [LinearOrder K] [IsStrictOrderedRing K]

theorem isMesh_of_path {R : K → K → Prop} {p q : K} {v : List K} (h : Path R p q v) (hR : ∀ x y, R x y → x < y) : IsMesh p q v (pathCells v.length) :=
  ⟨h.pairwise hR, h.head, h.last, rfl⟩

/-- What such a mesh is good for: every point of the interval lies in a cell, and the inside of a cell contains no vertex. -/
theorem covers {p q : K} {v : List K} {cells : List (List Nat)} (h : IsMesh p q v cells) (hpq : p < q) :
    (∀ x, p ≤ x → x ≤ q → ∃ i, [i, i + 1] ∈ cells ∧ v.getD i 0 ≤ x ∧ x ≤ v.getD (i + 1) 0) ∧
      ∀ i, [i, i + 1] ∈ cells → v.getD i 0 < v.getD (i + 1) 0 ∧ ∀ x ∈ v, x ≤ v.getD i 0 ∨ v.getD (i + 1) 0 ≤ x := by
  have hmem : ∀ i, [i, i + 1] ∈ cells ↔ i + 1 < v.length := by
    intro i
    rw [h.cells, List.mem_map]
    constructor
    · rintro ⟨j, hj, e⟩
      have := List.mem_range.1 hj
      simp at e
      omega
    · intro hi
      exact ⟨i, List.mem_range.2 (by omega), rfl⟩
  have hlt : ∀ i j, i < j → j < v.length → v.getD i 0 < v.getD j 0 := by
    intro i j hij hj
    rw [List.getD_eq_getElem v 0 (by omega), List.getD_eq_getElem v 0 hj]
    exact List.pairwise_iff_getElem.1 h.increasing i j (by omega) hj hij
  have hne : v ≠ [] := by
    intro e
    have := h.first
    rw [e] at this
    simp at this
  have hlen : 0 < v.length := List.length_pos_iff.2 hne
  have h0 : v.getD 0 0 = p := by
    have := h.first
    rw [List.head?_eq_getElem?] at this
    rw [List.getD_eq_getElem?_getD, this]; rfl
  have h1 : v.getD (v.length - 1) 0 = q := by
    have := h.last
    rw [List.getLast?_eq_getElem?] at this
    rw [List.getD_eq_getElem?_getD, this]; rfl
  constructor
  · intro x hx hxq
    have : ∀ n, n < v.length → x ≤ v.getD n 0 → 0 < n → ∃ i, i + 1 < v.length ∧ v.getD i 0 ≤ x ∧ x ≤ v.getD (i + 1) 0 := by
      intro n
      induction n with
      | zero => intro _ _ h; omega
      | succ n ih =>
        intro hn hxn _
        rcases le_total (v.getD n 0) x with hle | hle
        · exact ⟨n, hn, hle, hxn⟩
        · rcases Nat.eq_zero_or_pos n with rfl | hpos
          · exact ⟨0, hn, by rw [h0]; exact hx, hxn⟩
          · exact ih (by omega) hle hpos
    have hl2 : 0 < v.length - 1 := by
      by_contra hc
      have : v.length - 1 = 0 := by omega
      rw [this, h0] at h1
      exact absurd h1 hpq.ne
    obtain ⟨i, hi, a, b⟩ := this (v.length - 1) (by omega) (by rw [h1]; exact hxq) hl2
    exact ⟨i, (hmem i).2 hi, a, b⟩
  · intro i hi
    have hi := (hmem i).1 hi
    refine ⟨hlt i (i + 1) (by omega) hi, fun x hx => ?_⟩
    obtain ⟨j, hj, rfl⟩ := List.mem_iff_getElem.1 hx
    rw [← List.getD_eq_getElem v 0 hj]
    rcases Nat.lt_or_ge i j with hij | hij
    · right
      rcases Nat.eq_or_lt_of_le (show i + 1 ≤ j by omega) with e | e
      · rw [e]
      · exact (hlt _ _ e hj).le
    · left
      rcases Nat.eq_or_lt_of_le hij with e | e
      · rw [e]
      · exact (hlt _ _ e (by omega)).le

/-- `simpleInterval` is an equidistant mesh of `[a, b]` with the given number of cells. -/
theorem interval {a b : K} (hab : a < b) {n : Nat} (hn : 0 < n) :
    IsMesh a b (simpleInterval a b n).1 (simpleInterval a b n).2 ∧ (simpleInterval a b n).1.length = n + 1 ∧
      (simpleInterval a b n).1.IsChain fun x y => y - x = (b - a) / n := by
  have hn0 : (n : K) ≠ 0 := by exact_mod_cast hn.ne'
  have hpos : 0 < (b - a) / (n : K) := div_pos (by linarith) (by exact_mod_cast hn)
  have e : (simpleInterval a b n).1 = (List.range (n + 1)).map fun (i : Nat) => a + (b - a) * ((i : K) / (n : K)) := by
    unfold simpleInterval
    dsimp only
    rw [List.range_succ, List.map_append]
    simp only [List.map_cons, List.map_nil]
    rw [div_self hn0, mul_one, add_sub_cancel]
  have hc : (simpleInterval a b n).1.IsChain fun x y => y - x = (b - a) / n := by
    rw [e, List.isChain_map, List.isChain_range_succ]
    intro m _
    push_cast
    field_simp
    ring
  have hlen : (simpleInterval a b n).1.length = n + 1 := by rw [e]; simp
  refine ⟨⟨List.isChain_iff_pairwise.1 (hc.imp fun x y h => by linarith), ?_, ?_, ?_⟩, hlen, hc⟩
  · rw [e, List.range_succ_eq_map]
    simp
  · unfold simpleInterval
    simp
  · rw [hlen]
    rfl

variable [FloorRing K]

/-- `intervalWithInteraction` is a mesh of at least the interval and its two layers of width `horizon` up to the tolerance.  The inner part is an
equidistant mesh of `[a, b]` of width at most `h`.  The outer cells have the same width, or differ by the tolerance if the layers are kept strictly. -/
theorem interaction {eps a b horizon h : K} {strict : Bool} (hab : a < b) (hh : 0 < h) (hhor : 0 ≤ horizon) (he : 0 < eps) :
    ∃ L R w left inner right, (intervalWithInteraction eps a b horizon (some h) strict).1 = left ++ inner ++ right ∧
      IsMesh L R (intervalWithInteraction eps a b horizon (some h) strict).1 (intervalWithInteraction eps a b horizon (some h) strict).2 ∧
      inner.head? = some a ∧ inner.getLast? = some b ∧ (inner.IsChain fun x y => y - x = w) ∧ 0 < w ∧ w ≤ h ∧
      (∀ x ∈ left, x < a) ∧ (∀ x ∈ right, b < x) ∧ L - a = b - R ∧
      L ≤ a - horizon + eps ∧ a - horizon - h < L ∧ (strict = true → eps < horizon → L = a - horizon) ∧
      ((intervalWithInteraction eps a b horizon (some h) strict).1.IsChain fun x y => y - x ≤ w + eps) ∧
      (strict = false → (intervalWithInteraction eps a b horizon (some h) strict).1.IsChain fun x y => y - x = w) := by
  obtain ⟨k1, k2⟩ := innerCells_spec hab hh
  show ∃ L R w left inner right, getNodes eps a b horizon h strict = left ++ inner ++ right ∧
      IsMesh L R (getNodes eps a b horizon h strict) (pathCells (getNodes eps a b horizon h strict).length) ∧
      inner.head? = some a ∧ inner.getLast? = some b ∧ (inner.IsChain fun x y => y - x = w) ∧ 0 < w ∧ w ≤ h ∧
      (∀ x ∈ left, x < a) ∧ (∀ x ∈ right, b < x) ∧ L - a = b - R ∧
      L ≤ a - horizon + eps ∧ a - horizon - h < L ∧ (strict = true → eps < horizon → L = a - horizon) ∧
      ((getNodes eps a b horizon h strict).IsChain fun x y => y - x ≤ w + eps) ∧
      (strict = false → (getNodes eps a b horizon h strict).IsChain fun x y => y - x = w)
  unfold getNodes
  generalize innerCells a b h = ki at k1 k2
  obtain ⟨n, rfl⟩ : ∃ n : Nat, ki = n := ⟨ki.toNat, by omega⟩
  have hn : 1 ≤ n := by omega
  have hn' : (1 : K) ≤ n := by exact_mod_cast hn
  rw [Int.cast_natCast] at k2
  rw [Int.toNat_natCast]
  have pin := linspace_path a b hn
  have hw : 0 < (b - a) / (n : K) := div_pos (by linarith) (by linarith)
  have hwh : (b - a) / (n : K) ≤ h := by rw [div_le_iff₀ (by linarith)]; linarith
  have hi : (StructuredMesh.linspace a b (n + 1)).getD 1 0 - (StructuredMesh.linspace a b (n + 1)).getD 0 0 = (b - a) / n := by
    have := List.isChain_iff_getElem.1 pin.chain 0 (by rw [StructuredMesh.linspace, List.length_map, List.length_range]; omega)
    rw [List.getD_eq_getElem _ 0 (by rw [StructuredMesh.linspace, List.length_map, List.length_range]; omega),
      List.getD_eq_getElem _ 0 (by rw [StructuredMesh.linspace, List.length_map, List.length_range]; omega), this]
    ring
  dsimp only
  rw [hi]
  generalize (b - a) / (n : K) = w at *
  obtain ⟨o1, o2, o3, o4⟩ := outerCells_spec he hhor hw
  generalize outerCells eps horizon w = ko at o1 o2 o3 o4
  obtain ⟨m, rfl⟩ : ∃ m : Nat, ko = m := ⟨ko.toNat, by omega⟩
  rw [Int.cast_natCast] at *
  rw [Int.toNat_natCast]
  rcases Nat.eq_zero_or_pos m with rfl | hm
  · -- no outer cells
    have hl1 : ∀ x : K, (StructuredMesh.linspace x a (0 + 1)).dropLast = [] := fun x => rfl
    have hl2 : ∀ x : K, (StructuredMesh.linspace b x (0 + 1)).tail = [] := fun x => rfl
    rw [hl1, hl2]
    simp only [Nat.cast_zero, zero_mul] at o2 o3 o4
    have hch : (([] : List K) ++ StructuredMesh.linspace a b (n + 1) ++ []).IsChain fun x y => y - x = w := by
      rw [List.nil_append, List.append_nil]
      exact pin.chain.imp fun x y e => by linarith
    refine ⟨a, b, w, [], _, [], rfl, ?_, pin.head, pin.last, pin.chain.imp fun x y e => by linarith, hw, hwh, by simp, by simp, by ring, by linarith,
      by linarith, fun _ hc => by linarith, hch.imp fun x y e => by linarith, fun _ => hch⟩
    rw [List.nil_append, List.append_nil]
    exact isMesh_of_path pin fun x y e => by linarith
  · have hm' : (1 : K) ≤ m := by exact_mod_cast hm
    have hm0 : (m : K) ≠ 0 := by linarith
    generalize hH : (if strict = true then horizon else (m : K) * w) = H
    have hHpos : 0 < H := by
      rw [← hH]
      split_ifs
      · rcases eq_or_lt_of_le hhor with e | e
        · rw [← e] at o3
          nlinarith
        · exact e
      · positivity
    have pl := linspace_path (a - H) a hm
    have pr := linspace_path b (b + H) hm
    rw [sub_sub_cancel] at pl
    rw [add_sub_cancel_left] at pr
    have hstep : 0 < H / m := by positivity
    have hstep' : H / m ≤ w + eps := by
      rw [div_le_iff₀ (by linarith)]
      rw [← hH]
      split_ifs <;> nlinarith
    have pinc := pin.mono (S := fun x y => x < y ∧ y - x ≤ w + eps) fun x y e => ⟨by linarith, by linarith⟩
    have plc := pl.mono (S := fun x y => x < y ∧ y - x ≤ w + eps) fun x y e => ⟨by linarith, by linarith⟩
    have prc := pr.mono (S := fun x y => x < y ∧ y - x ≤ w + eps) fun x y e => ⟨by linarith, by linarith⟩
    have pall := (plc.glue pinc).glue prc
    rw [← plc.glue_eq pinc] at pall
    refine ⟨a - H, b + H, w, _, _, _, rfl, isMesh_of_path pall fun x y h => h.1, pin.head, pin.last, pin.chain.imp fun x y e => by linarith, hw, hwh,
      ?_, ?_, by ring, ?_, ?_, ?_, pall.chain.imp fun x y h => h.2, ?_⟩
    · have := plc.pairwise fun x y h => h.1
      rw [plc.concat] at this
      exact fun x hx => (List.pairwise_append.1 this).2.2 x hx a (by simp)
    · have := prc.pairwise fun x y h => h.1
      rw [prc.cons] at this
      exact fun x hx => List.rel_of_pairwise_cons this hx
    · rw [← hH]; split_ifs <;> linarith
    · rw [← hH]; split_ifs <;> linarith
    · intro hs _; rw [← hH, if_pos hs]
    · intro hs
      have eH : H = m * w := by rw [← hH, hs]; rfl
      have es : H / m = w := by rw [eH, mul_div_cancel_left₀ _ hm0]
      rw [es] at pl pr
      have p2 := (pl.glue pin).glue pr
      rw [← pl.glue_eq pin] at p2
      exact p2.chain.imp fun x y e => by linarith

/-- The width of the mesh is the horizon if none is given. -/
theorem interaction_default (eps a b horizon : K) (strict : Bool) :
    intervalWithInteraction eps a b horizon none strict = intervalWithInteraction eps a b horizon (some horizon) strict := rfl

/-- Distances of the given points: none, or more than the tolerance. -/
def Apart (eps x : K) : Prop := x = 0 ∨ eps < x

/-- `doubleIntervalWithInteractions`: if the layers of the middle point stay inside of the intervals, a mesh results with cells of the wanted width up to the
tolerance, and all ends of the intervals and of the layers are vertices.  It fails in general, see below. -/
theorem double_partial {eps a b c horizon1 horizon2 : K} {h : Option K} (he : 0 < eps) (he2 : eps < 1 / 2) (hh : ∀ h', h = some h' → eps < h')
    (h1 : Apart eps horizon1) (h2 : Apart eps horizon2) (h12 : Apart eps (horizon2 - horizon1))
    (hab : Apart eps (b - a - horizon2)) (hbc : Apart eps (c - b - horizon2)) :
    ∃ v cells, doubleInterval eps a b c horizon1 horizon2 h = some (v, cells) ∧ IsMesh (a - horizon1) (c + horizon2) v cells ∧
      a ∈ v ∧ b ∈ v ∧ c ∈ v ∧ b - horizon1 ∈ v ∧ b + horizon1 ∈ v ∧ b - horizon2 ∈ v ∧ b + horizon2 ∈ v ∧
      (v.IsChain fun x y => (∀ h', h = some h' → y - x ≤ h' + eps) ∧ (0 < horizon1 → y - x ≤ horizon1 + eps) ∧ (0 < horizon2 → y - x ≤ horizon2 + eps)) := by
  have p1 : 0 ≤ horizon1 := by rcases h1 with h | h <;> linarith
  have p12 : horizon1 ≤ horizon2 := by rcases h12 with h | h <;> linarith
  have q1 : 0 < horizon1 → eps < horizon1 := by intro h; rcases h1 with h' | h' <;> linarith
  have q2 : 0 < horizon2 → eps < horizon2 := by intro h; rcases h2 with h' | h' <;> linarith
  have q12 : horizon1 ≠ horizon2 → eps < horizon2 - horizon1 := by
    intro h
    rcases h12 with h' | h'
    · exact absurd (by linarith) h
    · exact h'
  unfold doubleInterval
  rw [if_pos ⟨p12, p1⟩]
  have hw : eps < doubleWidth horizon1 horizon2 h := by
    unfold doubleWidth
    cases h with
    | none =>
      dsimp only
      split_ifs with a b
      · exact q1 a
      · exact q2 b
      · exact he2
    | some h' =>
      have := hh h' rfl
      dsimp only
      split_ifs with a b
      · exact lt_min (lt_min this (q1 a)) (q2 (by linarith))
      · exact lt_min this (q2 b)
      · exact this
  have hwle : ∀ x y : K, (x < y ∧ y - x ≤ doubleWidth horizon1 horizon2 h + eps) →
      (∀ h', h = some h' → y - x ≤ h' + eps) ∧ (0 < horizon1 → y - x ≤ horizon1 + eps) ∧ (0 < horizon2 → y - x ≤ horizon2 + eps) := by
    rintro x y ⟨_, hxy⟩
    have w0 : ∀ h', h = some h' → doubleWidth horizon1 horizon2 h ≤ h' := by
      rintro h' rfl
      unfold doubleWidth
      dsimp only
      split_ifs
      · exact le_trans (min_le_left _ _) (min_le_left _ _)
      · exact min_le_left _ _
      · exact le_rfl
    have w1 : 0 < horizon1 → doubleWidth horizon1 horizon2 h ≤ horizon1 := by
      intro hp
      unfold doubleWidth
      cases h with
      | none => dsimp only; rw [if_pos hp]
      | some h' => dsimp only; rw [if_pos hp]; exact le_trans (min_le_left _ _) (min_le_right _ _)
    have w2 : 0 < horizon2 → doubleWidth horizon1 horizon2 h ≤ horizon2 := by
      intro hp
      by_cases hp1 : 0 < horizon1
      · exact le_trans (w1 hp1) p12
      · unfold doubleWidth
        cases h with
        | none => dsimp only; rw [if_neg hp1, if_pos hp]
        | some h' => dsimp only; rw [if_neg hp1, if_pos hp]; exact min_le_right _ _
    exact ⟨fun h' e => by linarith [w0 h' e], fun hp => by linarith [w1 hp], fun hp => by linarith [w2 hp]⟩
  have gab : a = b - horizon2 ∨ a + eps < b - horizon2 := by
    rcases hab with h | h
    · left; linarith
    · right; linarith
  have gbc : b + horizon2 = c ∨ b + horizon2 + eps < c := by
    rcases hbc with h | h
    · left; linarith
    · right; linarith
  generalize doubleWidth horizon1 horizon2 h = w at hw hwle
  have finish : ∀ (p q : K) (l : List K), doubleNodes a b c horizon1 horizon2 = p :: q :: l →
      (p :: q :: l).IsChain (fun p q => p = q ∨ p + eps < q) → p = a - horizon1 → (p :: q :: l).getLast (by simp) = c + horizon2 →
      (∀ x, x = a ∨ x = b ∨ x = c ∨ x = b - horizon1 ∨ x = b + horizon1 ∨ x = b - horizon2 ∨ x = b + horizon2 → x ∈ p :: q :: l) →
      ∃ v cells, (do
          let v ← pieces eps w (doubleNodes a b c horizon1 horizon2)
          some (v, pathCells v.length)) = some (v, cells) ∧ IsMesh (a - horizon1) (c + horizon2) v cells ∧
        a ∈ v ∧ b ∈ v ∧ c ∈ v ∧ b - horizon1 ∈ v ∧ b + horizon1 ∈ v ∧ b - horizon2 ∈ v ∧ b + horizon2 ∈ v ∧
        (v.IsChain fun x y => (∀ h', h = some h' → y - x ≤ h' + eps) ∧ (0 < horizon1 → y - x ≤ horizon1 + eps) ∧ (0 < horizon2 → y - x ≤ horizon2 + eps)) := by
    intro p q l e hc hp hl hm
    obtain ⟨r, hr, pr, hmem⟩ := pieces_path he hw p q l hc
    rw [hl, hp] at pr
    refine ⟨r, pathCells r.length, ?_, isMesh_of_path pr fun x y h => h.1, ?_, ?_, ?_, ?_, ?_, ?_, ?_, pr.chain.imp hwle⟩
    · rw [e, hr]; rfl
    all_goals exact hmem _ (hm _ (by simp))
  by_cases z1 : 0 < horizon1
  · have z2 : 0 < horizon2 := by linarith
    have e1 := q1 z1
    have e2 := q2 z2
    by_cases z12 : horizon1 = horizon2
    · subst z12
      refine finish (a - horizon1) a [b - horizon1, b, b + horizon1, c, c + horizon1] (by simp [doubleNodes, z1]) ?_ rfl rfl ?_
      · simp only [List.isChain_cons_cons, List.isChain_singleton, and_true]
        refine ⟨by right; linarith, gab, by right; linarith, by right; linarith, gbc, by right; linarith⟩
      · rintro x (rfl | rfl | rfl | rfl | rfl | rfl | rfl) <;> simp
    · have e3 := q12 z12
      refine finish (a - horizon1) a [b - horizon2, b - horizon1, b, b + horizon1, b + horizon2, c, c + horizon2] (by simp [doubleNodes, z1, z2, z12]) ?_ rfl rfl ?_
      · simp only [List.isChain_cons_cons, List.isChain_singleton, and_true]
        refine ⟨by right; linarith, gab, by right; linarith, by right; linarith, by right; linarith, by right; linarith, gbc, by right; linarith⟩
      · rintro x (rfl | rfl | rfl | rfl | rfl | rfl | rfl) <;> simp
  · have z0 : horizon1 = 0 := by linarith
    subst z0
    by_cases z2 : 0 < horizon2
    · have e2 := q2 z2
      refine finish a (b - horizon2) [b - 0, b, b + 0, b + horizon2, c, c + horizon2] (by simp [doubleNodes, z2, z2.ne]) ?_ (by ring) rfl ?_
      · simp only [List.isChain_cons_cons, List.isChain_singleton, and_true]
        refine ⟨gab, by right; linarith, by left; ring, by left; ring, by right; linarith, gbc, by right; linarith⟩
      · rintro x (rfl | rfl | rfl | rfl | rfl | rfl | rfl) <;> simp
    · have z0 : horizon2 = 0 := by linarith
      subst z0
      refine finish a b [c] (by simp [doubleNodes]) ?_ (by ring) (by simp) ?_
      · simp only [List.isChain_cons_cons, List.isChain_singleton, and_true]
        rw [sub_zero] at gab
        rw [add_zero] at gbc
        exact ⟨gab, gbc⟩
      · rintro x (rfl | rfl | rfl | rfl | rfl | rfl | rfl) <;> simp

end

/-- `0 ≤ horizon1 ≤ horizon2` is all the program asks for, but with layers wider than the intervals the end of the second interval is no vertex, or the
program raises an error. -/
theorem double_fails : (doubleInterval (1 / 100 : ℚ) 0 1 2 2 2 none).map (fun m => (m.1, decide (2 ∈ m.1))) = some ([-2, 0, 1, 3, 4], false) ∧
    doubleInterval (1 / 100 : ℚ) 0 1 2 2 2 (some (1 / 4)) = none := by
  constructor <;> decide +kernel

/-! Graded meshes. -/

/-- Exponents are positive, and at least one is given. -/
structure Sensible (I : Interval) : Prop where
  lt : I.a < I.b
  pos1 : ∀ mu, I.mu1 = some mu → 0 < mu
  pos2 : ∀ mu, I.mu2 = some mu → 0 < mu
  given : I.mu1 ≠ none ∨ I.mu2 ≠ none

/-- Adjacent intervals. -/
def Adjacent (l : List Interval) : Prop := (∀ I ∈ l, Sensible I) ∧ l.IsChain fun I J => I.b = J.a

theorem counts_good {h : ℝ} {I : Interval} (hI : Sensible I) (hh : 0 < h) (hhI : h ≤ I.b - I.a) : ∃ M, counts h I = some M ∧ Good I M := by
  unfold counts
  cases e1 : I.mu1 with
  | none =>
    cases e2 : I.mu2 with
    | none => rcases hI.given with h | h <;> contradiction
    | some mu2 =>
      have := (gradedCount_spec hh hhI (hI.pos2 _ e2)).1
      refine ⟨_, rfl, hI.lt, ?_, ?_, ?_, hI.pos1, hI.pos2⟩
      · rw [e1]; simp
      · rw [e2]; dsimp only; simp; omega
      · dsimp only; omega
  | some mu1 =>
    have a1 := (gradedCount_spec hh hhI (hI.pos1 _ e1)).1
    cases e2 : I.mu2 with
    | none =>
      refine ⟨_, rfl, hI.lt, ?_, ?_, ?_, hI.pos1, hI.pos2⟩
      · rw [e1]; dsimp only; simp; omega
      · rw [e2]; simp
      · dsimp only; omega
    | some mu2 =>
      have a2 := (gradedCount_spec hh hhI (hI.pos2 _ e2)).1
      refine ⟨_, rfl, hI.lt, ?_, ?_, ?_, hI.pos1, hI.pos2⟩
      · rw [e1]; dsimp only; simp; omega
      · rw [e2]; dsimp only; simp; omega
      · dsimp only; omega

theorem allCounts_adj {h : ℝ} (hh : 0 < h) : ∀ {L : List Interval}, Adjacent L → (∀ I ∈ L, h ≤ I.b - I.a) →
    ∃ l, allCounts h L = some l ∧ l.map Prod.fst = L ∧ Adj l ∧ ∀ x ∈ l, counts h x.1 = some x.2 := by
  intro L
  induction L with
  | nil => intro _ _; exact ⟨[], rfl, rfl, ⟨by simp, by simp⟩, by simp⟩
  | cons I L ih =>
    intro hL hw
    obtain ⟨M, hM, hg⟩ := counts_good (hL.1 I List.mem_cons_self) hh (hw I List.mem_cons_self)
    obtain ⟨l, hl, e, hadj, hc⟩ := ih ⟨fun J hJ => hL.1 J (List.mem_cons_of_mem _ hJ), hL.2.tail⟩ fun J hJ => hw J (List.mem_cons_of_mem _ hJ)
    refine ⟨(I, M) :: l, ?_, by rw [List.map_cons, e], ⟨?_, ?_⟩, ?_⟩
    · unfold allCounts
      rw [hM, hl]
      rfl
    · intro x hx
      rcases List.mem_cons.1 hx with rfl | hx
      · exact hg
      · exact hadj.1 x hx
    · have : (((I, M) :: l).map Prod.fst).IsChain fun I J => I.b = J.a := by rw [List.map_cons, e]; exact hL.2
      rwa [List.isChain_map] at this
    · intro x hx
      rcases List.mem_cons.1 hx with rfl | hx
      · exact hM
      · exact hc x hx

theorem adjacent_pairwise {L : List Interval} (h : Adjacent L) : L.Pairwise fun I J => I.a < J.a := by
  have h1 : L.IsChain fun I J => I.a < J.a := by
    rw [List.isChain_iff_getElem]
    intro i hi
    have := List.isChain_iff_getElem.1 h.2 i hi
    rw [← this]
    exact (h.1 _ (List.getElem_mem _)).lt
  have : IsTrans Interval fun I J => I.a < J.a := ⟨fun _ _ _ => lt_trans⟩
  exact List.isChain_iff_pairwise.1 h1

open Classical in
theorem sort_adjacent {L intervals : List Interval} (h : Adjacent L) (hp : intervals.Perm L) : intervals.insertionSort (fun I J => I.a ≤ J.a) = L := by
  have hL := adjacent_pairwise h
  have : IsTrans Interval fun I J => I.a ≤ J.a := ⟨fun _ _ _ => le_trans⟩
  have : Std.Total (fun I J : Interval => I.a ≤ J.a) := ⟨fun I J => le_total I.a J.a⟩
  have hperm : (intervals.insertionSort fun I J => I.a ≤ J.a).Perm L := (List.perm_insertionSort _ _).trans hp
  refine List.Perm.eq_of_pairwise ?_ (List.pairwise_insertionSort (fun I J : Interval => I.a ≤ J.a) intervals) (hL.imp fun h => le_of_lt h) hperm
  intro I J hI hJ h1 h2
  have hI := hperm.mem_iff.1 hI
  have e : I.a = J.a := le_antisymm h1 h2
  by_contra hne
  obtain ⟨i, hi, rfl⟩ := List.mem_iff_getElem.1 hI
  obtain ⟨j, hj, rfl⟩ := List.mem_iff_getElem.1 hJ
  rcases Nat.lt_trichotomy i j with hij | hij | hij
  · exact absurd e (List.pairwise_iff_getElem.1 hL i j hi hj hij).ne
  · subst hij; exact hne rfl
  · exact absurd e (List.pairwise_iff_getElem.1 hL j i hj hi hij).ne'

/-- The vertices for given numbers of cells. -/
noncomputable def points (l : List (Interval × Nat × Nat)) : List ℝ := (List.range (total l + 1)).map (gradedPoints l)

theorem points_length (l : List (Interval × Nat × Nat)) : (points l).length = total l + 1 := by unfold points; simp

theorem points_getD {l : List (Interval × Nat × Nat)} (h : Adj l) (hl : l ≠ []) {i : Nat} (hi : i ≤ total l) : (points l).getD i 0 = G l i := by
  rw [List.getD_eq_getElem _ _ (by rw [points_length]; omega)]
  unfold points
  rw [List.getElem_map, List.getElem_range, gradedPoints_eq h hl hi]

theorem points_eq {l : List (Interval × Nat × Nat)} (h : Adj l) (hl : l ≠ []) : points l = (List.range (total l + 1)).map (G l) := by
  unfold points
  apply List.map_congr_left
  intro i hi
  exact gradedPoints_eq h hl (by have := List.mem_range.1 hi; omega)

theorem points_mesh {l : List (Interval × Nat × Nat)} (h : Adj l) (hl : l ≠ []) :
    IsMesh (l.head hl).1.a (l.getLast hl).1.b (points l) ((List.range (total l)).map fun i => [i, i + 1]) := by
  refine ⟨?_, ?_, ?_, ?_⟩
  · rw [points_eq h hl]
    apply List.isChain_iff_pairwise.1
    rw [List.isChain_map, List.isChain_range_succ]
    exact fun m hm => G_lt h m (by omega)
  · rw [points_eq h hl, List.range_succ_eq_map]
    simp only [List.map_cons, List.head?_cons]
    cases l with
    | nil => exact absurd rfl hl
    | cons x l => obtain ⟨I, M⟩ := x; rw [G_zero h]; rfl
  · rw [points_eq h hl, List.range_succ, List.map_append, List.getLast?_append]
    simp only [List.map_cons, List.map_nil, List.getLast?_singleton, Option.some_or]
    rw [G_last h hl]
  · rw [points_length]; rfl

/-- Adjacent intervals in any order give a mesh of their union; all ends of intervals are vertices. -/
theorem graded {L intervals : List Interval} (hL : Adjacent L) (hne : L ≠ []) (hp : intervals.Perm L) {h : ℝ} (hh : 0 < h) (hw : ∀ I ∈ L, h ≤ I.b - I.a) :
    ∃ v cells, gradedIntervals intervals h = some (v, cells, L) ∧ IsMesh (L.head hne).a (L.getLast hne).b v cells ∧ ∀ I ∈ L, I.a ∈ v ∧ I.b ∈ v := by
  obtain ⟨l, hl, e, hadj, _⟩ := allCounts_adj hh hL hw
  have hlne : l ≠ [] := by rintro rfl; exact hne e.symm
  refine ⟨points l, (List.range (total l)).map (fun i => [i, i + 1]), ?_, ?_, ?_⟩
  · unfold gradedIntervals
    dsimp only
    rw [sort_adjacent hL hp, hl]
    rfl
  · have := points_mesh hadj hlne
    subst e
    rw [List.head_map, List.getLast_map]
    exact this
  · intro I hI
    rw [← e] at hI
    obtain ⟨x, hx, rfl⟩ := List.mem_map.1 hI
    obtain ⟨i, j, _, hj, e1, e2⟩ := G_mem hadj x hx
    rw [points_eq hadj hlne, ← e1, ← e2]
    exact ⟨List.mem_map.2 ⟨i, List.mem_range.2 (by omega), rfl⟩, List.mem_map.2 ⟨j, List.mem_range.2 (by omega), rfl⟩⟩

/-- An interval without exponents raises an error. -/
theorem graded_error {intervals : List Interval} {I : Interval} (hI : I ∈ intervals) (h1 : I.mu1 = none) (h2 : I.mu2 = none) (h : ℝ) : gradedIntervals intervals h = none := by
  have key : ∀ {l : List Interval}, I ∈ l → allCounts h l = none := by
    intro l
    induction l with
    | nil => simp
    | cons J l ih =>
      intro hm
      unfold allCounts
      rcases List.mem_cons.1 hm with rfl | hm
      · have : counts h I = none := by unfold counts; rw [h1, h2]
        rw [this]; rfl
      · rw [ih hm]
        cases counts h J <;> rfl
  unfold gradedIntervals
  dsimp only
  rw [key ((List.perm_insertionSort _ _).mem_iff.2 hI)]
  rfl

theorem gval_step {h : ℝ} {I : Interval} {M : Nat × Nat} (hh : 0 < h) (hhI : h ≤ I.b - I.a) (hg : Good I M) (hM : counts h I = some M)
    (g1 : ∀ mu, I.mu1 = some mu → 1 ≤ mu) (g2 : ∀ mu, I.mu2 = some mu → 1 ≤ mu) {i : Nat} (hi : i < M.1 + M.2) : gval I M (i + 1) - gval I M i ≤ h := by
  have hr := hg.radius_pos
  have hrle : radius I M ≤ I.b - I.a := by
    have := hg.lt
    unfold radius
    split_ifs <;> linarith
  have hm1 : ∀ mu, I.mu1 = some mu → M.1 = gradedCount h (I.b - I.a) mu := by
    intro mu e
    unfold counts at hM
    rw [e] at hM
    cases e2 : I.mu2 <;> rw [e2] at hM <;> (have := Option.some.inj hM; rw [← this])
  have hm2 : ∀ mu, I.mu2 = some mu → M.2 = gradedCount h (I.b - I.a) mu := by
    intro mu e
    unfold counts at hM
    rw [e] at hM
    cases e2 : I.mu1 <;> rw [e2] at hM <;> (have := Option.some.inj hM; rw [← this])
  -- the cell next to the centre is the largest one
  have key : ∀ (mu : ℝ) (m j : Nat), 1 ≤ mu → m = gradedCount h (I.b - I.a) mu → j < m →
      radius I M * ((((j : ℝ) + 1) / m) ^ mu - ((j : ℝ) / m) ^ mu) ≤ h := by
    intro mu m j hmu hm hj
    have hmpos : (0 : ℝ) < m := by exact_mod_cast (by omega : 0 < m)
    have hmu0 : 0 < mu := by linarith
    have s1 := (gradedCount_spec hh hhI hmu0).2
    rw [← hm] at s1
    have s2 := rpow_steps hmu (u := (j : ℝ) / m) (v := 1 - 1 / m) (d := 1 / m) (by positivity)
      (by rw [div_le_iff₀ hmpos, sub_mul, one_mul, div_mul_cancel₀ _ hmpos.ne']
          have : (j : ℝ) + 1 ≤ m := by exact_mod_cast hj
          linarith) (by positivity)
    rw [sub_add_cancel, Real.one_rpow, ← add_div] at s2
    have n0 : 0 ≤ 1 - (1 - 1 / (m : ℝ)) ^ mu := by
      have h1m : 1 / (m : ℝ) ≤ 1 := by
        rw [div_le_one hmpos]
        exact_mod_cast (by omega : 1 ≤ m)
      have h0m : 0 < 1 / (m : ℝ) := by positivity
      have : (1 - 1 / (m : ℝ)) ^ mu ≤ 1 := Real.rpow_le_one (by linarith) (by linarith) hmu0.le
      linarith
    calc radius I M * ((((j : ℝ) + 1) / m) ^ mu - ((j : ℝ) / m) ^ mu) ≤ radius I M * (1 - (1 - 1 / (m : ℝ)) ^ mu) := mul_le_mul_of_nonneg_left s2 hr.le
      _ ≤ (I.b - I.a) * (1 - (1 - 1 / (m : ℝ)) ^ mu) := mul_le_mul_of_nonneg_right hrle n0
      _ ≤ h := s1
  rcases Nat.lt_or_ge i M.1 with h1 | h1
  · obtain ⟨mu, e⟩ := Option.isSome_iff_exists.1 (hg.some1.1 (by omega))
    rw [gval_left (by omega) (by omega), gval_left (by omega) (by omega), e]
    have := key mu M.1 i (g1 mu e) (hm1 mu e) h1
    simp only [Option.getD_some]
    push_cast
    linarith
  · obtain ⟨j, rfl⟩ := Nat.exists_eq_add_of_le h1
    have hM2 : (0 : ℝ) < M.2 := by exact_mod_cast (by omega : 0 < M.2)
    obtain ⟨mu, e⟩ := Option.isSome_iff_exists.1 (hg.some2.1 (by omega))
    rw [Nat.add_assoc, gval_right (by omega) (by omega), gval_right (by omega) (by omega), e]
    have := key mu M.2 (M.2 - 1 - j) (g2 mu e) (hm2 mu e) (by omega)
    simp only [Option.getD_some]
    have c1 : (((M.2 - 1 - j : Nat) : ℝ) + 1) / M.2 = 1 - (j : ℝ) / M.2 := by
      rw [Nat.sub_sub, Nat.cast_sub (by omega)]
      push_cast
      field_simp
      ring
    have c2 : ((M.2 - 1 - j : Nat) : ℝ) / M.2 = 1 - ((j + 1 : Nat) : ℝ) / M.2 := by
      rw [Nat.sub_sub, Nat.cast_sub (by omega)]
      push_cast
      field_simp
      ring
    rw [c1, c2] at this
    linarith

/-- Exponents of at least one: no cell is wider than `h`.  It fails for smaller exponents, see below. -/
theorem width_partial {L intervals : List Interval} (hL : Adjacent L) (hne : L ≠ []) (hp : intervals.Perm L) {h : ℝ} (hh : 0 < h) (hw : ∀ I ∈ L, h ≤ I.b - I.a)
    (h1 : ∀ I ∈ L, ∀ mu, I.mu1 = some mu ∨ I.mu2 = some mu → 1 ≤ mu) {v : List ℝ} {cells : List (List Nat)} {L' : List Interval}
    (hv : gradedIntervals intervals h = some (v, cells, L')) : v.IsChain fun x y => y - x ≤ h := by
  obtain ⟨l, hl, e, hadj, hc⟩ := allCounts_adj hh hL hw
  have hlne : l ≠ [] := by rintro rfl; exact hne e.symm
  have : v = points l := by
    unfold gradedIntervals at hv
    dsimp only at hv
    rw [sort_adjacent hL hp, hl] at hv
    exact (congrArg Prod.fst (Option.some.inj hv)).symm
  rw [this, points_eq hadj hlne, List.isChain_map, List.isChain_range_succ]
  have key : ∀ (l : List (Interval × Nat × Nat)), Adj l → (∀ x ∈ l, counts h x.1 = some x.2 ∧ h ≤ x.1.b - x.1.a ∧ ∀ mu, x.1.mu1 = some mu ∨ x.1.mu2 = some mu → 1 ≤ mu) →
      ∀ m, m < total l → G l (m + 1) - G l m ≤ h := by
    intro l
    induction l with
    | nil => intro _ _ m hm; simp [total] at hm
    | cons x l ih =>
      obtain ⟨I, M⟩ := x
      intro ha hx m hm
      rcases Nat.lt_or_ge m (M.1 + M.2) with hlt | hge
      · unfold G
        rw [if_pos (by omega), if_pos (by omega)]
        obtain ⟨c1, c2, c3⟩ := hx _ List.mem_cons_self
        exact gval_step hh c2 (ha.1 _ List.mem_cons_self) c1 (fun mu e => c3 mu (Or.inl e)) (fun mu e => c3 mu (Or.inr e)) hlt
      · cases l with
        | nil => simp only [total] at hm; omega
        | cons y l =>
          obtain ⟨k, rfl⟩ := Nat.exists_eq_add_of_le hge
          rw [Nat.add_assoc (M.1 + M.2) k 1, G_add ha, G_add ha]
          exact ih ha.tail (fun x hx' => hx x (List.mem_cons_of_mem _ hx')) k (by simp only [total] at hm ⊢; omega)
  intro m hm
  refine key l hadj (fun x hx => ?_) m (by omega)
  have hxL : x.1 ∈ L := by rw [← e]; exact List.mem_map.2 ⟨x, hx, rfl⟩
  exact ⟨hc x hx, hw _ hxL, h1 _ hxL⟩

/-- With the exponent one half, cells can be wider than `h`: the unit interval and `h = 1/2` give the vertices `0`, `1 - √(1/2)`, `1`. -/
theorem width_fails : ∃ v cells L, gradedIntervals [⟨0, 1, none, some (1 / 2)⟩] (1 / 2) = some (v, cells, L) ∧ ¬ v.IsChain fun x y => y - x ≤ 1 / 2 := by
  have hI : Sensible ⟨0, 1, none, some (1 / 2)⟩ := ⟨by norm_num, by simp, by intro mu e; simp at e; rw [← e]; norm_num, by simp⟩
  have hL : Adjacent [⟨0, 1, none, some (1 / 2)⟩] := ⟨by simpa using hI, by simp⟩
  obtain ⟨l, hl, e, hadj, hc⟩ := allCounts_adj (h := 1 / 2) (by norm_num) hL (by intro I hI; simp at hI; rw [hI]; norm_num)
  have hcount : gradedCount (1 / 2) (1 - 0) (1 / 2) = 2 := by
    unfold gradedCount
    have : (1 / (1 - (1 - 1 / 2 / (1 - 0)) ^ ((1 : ℝ) / (1 / 2))) : ℝ) = 4 / 3 := by
      rw [show (1 : ℝ) / (1 / 2) = ((2 : ℕ) : ℝ) by norm_num, Real.rpow_natCast]
      norm_num
    rw [this, show ⌈(4 / 3 : ℝ)⌉ = 2 by rw [Int.ceil_eq_iff]; norm_num]
    rfl
  have hlist : l = [(⟨0, 1, none, some (1 / 2)⟩, (0, 2))] := by
    unfold allCounts allCounts counts at hl
    dsimp only at hl
    rw [hcount] at hl
    exact (Option.some.inj hl).symm
  refine ⟨points l, (List.range (total l)).map (fun i => [i, i + 1]), [⟨0, 1, none, some (1 / 2)⟩], ?_, ?_⟩
  · unfold gradedIntervals
    dsimp only
    rw [sort_adjacent hL (List.Perm.refl _), hl]
    rfl
  · rw [hlist] at hadj ⊢
    rw [points_eq hadj (by simp), List.isChain_map, List.isChain_range_succ]
    intro hcon
    have h1 := hcon 1 (by simp [total])
    have g := hadj.1 _ List.mem_cons_self
    have e2 : G [(⟨0, 1, none, some (1 / 2)⟩, (0, 2))] (1 + 1) = 1 := by
      unfold G
      exact gval_end g
    have e1 : G [(⟨0, 1, none, some (1 / 2)⟩, (0, 2))] 1 = 1 - (1 / 2 : ℝ) ^ (1 / 2 : ℝ) := by
      unfold G
      have := gval_right (I := ⟨0, 1, none, some (1 / 2)⟩) (M := (0, 2)) (i := 1) (by simp) (by simp)
      simp only [Nat.zero_add] at this
      rw [if_pos (by norm_num), this]
      unfold center radius
      simp
      norm_num
    rw [e1, e2] at h1
    have h3 : (1 / 2 : ℝ) < (1 / 2 : ℝ) ^ (1 / 2 : ℝ) := by
      have := Real.rpow_lt_rpow_of_exponent_gt (show (0 : ℝ) < 1 / 2 by norm_num) (by norm_num) (show (1 / 2 : ℝ) < 1 by norm_num)
      rwa [Real.rpow_one] at this
    linarith

/-- `w` arises from `v` by halving all cells and moving the new vertices by the transformation. -/
def Refines (L : List Interval) (v w : List ℝ) : Prop :=
  w.length + 1 = 2 * v.length ∧ (∀ i, i < v.length → w.getD (2 * i) 0 = v.getD i 0) ∧
    ∀ i, i + 1 < v.length → move L ((v.getD i 0 + v.getD (i + 1) 0) / 2) (v.getD i 0) (v.getD (i + 1) 0) = some (w.getD (2 * i + 1) 0)

theorem points_refines {l : List (Interval × Nat × Nat)} (h : Adj l) (hl : l ≠ []) : Refines (l.map Prod.fst) (points l) (points (l.map dbl)) := by
  have hl' : l.map dbl ≠ [] := by simpa using hl
  refine ⟨?_, ?_, ?_⟩
  · rw [points_length, points_length, total_dbl]; omega
  · intro i hi
    rw [points_length] at hi
    rw [points_getD h.dbl hl' (by rw [total_dbl]; omega), points_getD h hl (by omega), G_dbl h i (by omega)]
  · intro i hi
    rw [points_length] at hi
    rw [points_getD h hl (by omega), points_getD h hl (by omega), points_getD h.dbl hl' (by rw [total_dbl]; omega), move_eq h i (by omega)]

/-- `2^n` times as many cells. -/
def level (l : List (Interval × Nat × Nat)) (n : Nat) : List (Interval × Nat × Nat) := l.map fun x => (x.1, 2 ^ n * x.2.1, 2 ^ n * x.2.2)

theorem level_succ (l : List (Interval × Nat × Nat)) (n : Nat) : level l (n + 1) = (level l n).map dbl := by
  unfold level
  rw [List.map_map]
  apply List.map_congr_left
  intro x _
  simp only [Function.comp, dbl, pow_succ]
  simp only [Prod.mk.injEq, true_and]
  constructor <;> ring

theorem level_adj {l : List (Interval × Nat × Nat)} (h : Adj l) (n : Nat) : Adj (level l n) := by
  induction n with
  | zero => simpa [level] using h
  | succ n ih => rw [level_succ]; exact ih.dbl

/-- Refinement keeps the grading: after any number of refinements, the new vertices moved by the transformation, the mesh is again a mesh of the same interval,
and its vertices are those of the same grading with `2^n` times as many cells. -/
theorem refinement {L intervals : List Interval} (hL : Adjacent L) (hne : L ≠ []) (hp : intervals.Perm L) {h : ℝ} (hh : 0 < h) (hw : ∀ I ∈ L, h ≤ I.b - I.a)
    {v : List ℝ} {cells : List (List Nat)} {L' : List Interval} (hv : gradedIntervals intervals h = some (v, cells, L')) :
    ∃ l, allCounts h L = some l ∧ points (level l 0) = v ∧ ∀ n, Refines L' (points (level l n)) (points (level l (n + 1))) ∧
      IsMesh (L.head hne).a (L.getLast hne).b (points (level l n)) (pathCells (points (level l n)).length) := by
  obtain ⟨l, hl, e, hadj, hc⟩ := allCounts_adj hh hL hw
  have hlne : l ≠ [] := by rintro rfl; exact hne e.symm
  unfold gradedIntervals at hv
  dsimp only at hv
  rw [sort_adjacent hL hp, hl] at hv
  have hv := Option.some.inj hv
  have e0 : level l 0 = l := by simp [level]
  refine ⟨l, hl, ?_, fun n => ?_⟩
  · rw [e0]; exact congrArg Prod.fst hv
  · have hadjn := level_adj hadj n
    have hnen : level l n ≠ [] := by unfold level; simpa using hlne
    have hfst : (level l n).map Prod.fst = L := by
      unfold level
      rw [List.map_map, ← e]
      rfl
    have hL' : L' = L := (congrArg (fun x => x.2.2) hv).symm
    constructor
    · rw [level_succ, hL']
      conv => arg 1; rw [← hfst]
      exact points_refines hadjn hnen
    · have := points_mesh hadjn hnen
      have c : (List.range (total (level l n))).map (fun i => [i, i + 1]) = pathCells (points (level l n)).length := by
        unfold pathCells
        rw [points_length]; rfl
      rw [c] at this
      subst hfst
      rw [List.head_map, List.getLast_map]
      exact this

/-- The grading of one interval: with `m` cells towards an end the vertices have the distances `(length) * (i/m)^mu` from it. -/
theorem grading {I : Interval} (hI : Sensible I) {mu : ℝ} {m : Nat} (hm : 0 < m) {i : Nat} (hi : i ≤ m) :
    (I.mu1 = some mu → I.mu2 = none → gradedPoints [(I, (m, 0))] i = I.a + (I.b - I.a) * ((i : ℝ) / m) ^ mu) ∧
    (I.mu1 = none → I.mu2 = some mu → gradedPoints [(I, (0, m))] (m - i) = I.b - (I.b - I.a) * ((i : ℝ) / m) ^ mu) ∧
    (∀ m', 0 < m' → I.mu1 = some mu → I.mu2 ≠ none → gradedPoints [(I, (m, m'))] i = I.a + (I.b - I.a) / 2 * ((i : ℝ) / m) ^ mu) ∧
    (∀ m', 0 < m' → I.mu1 ≠ none → I.mu2 = some mu → gradedPoints [(I, (m', m))] (m' + m - i) = I.b - (I.b - I.a) / 2 * ((i : ℝ) / m) ^ mu) := by
  have hm0 : (m : ℝ) ≠ 0 := by exact_mod_cast hm.ne'
  have base : ∀ (M : Nat × Nat), Good I M → ∀ j, j ≤ M.1 + M.2 → gradedPoints [(I, M)] j = gval I M j := by
    intro M hg j hj
    rw [gradedPoints_eq ⟨by simpa using hg, by simp⟩ (by simp) (by simpa [total] using hj)]
    unfold G
    rw [if_pos hj]
  have flip : 1 - ((m - i : Nat) : ℝ) / m = (i : ℝ) / m := by
    rw [Nat.cast_sub hi]
    field_simp
    ring
  refine ⟨fun e1 e2 => ?_, fun e1 e2 => ?_, fun m' hm' e1 e2 => ?_, fun m' hm' e1 e2 => ?_⟩
  · have hg : Good I (m, 0) := ⟨hI.lt, by rw [e1]; simpa using hm, by rw [e2]; simp, by dsimp only; omega, hI.pos1, hI.pos2⟩
    rw [base _ hg i (by dsimp only; omega), gval_left (by dsimp only; omega) (by dsimp only; omega), e1]
    have := hg.left hm
    have hr : radius I (m, 0) = I.b - I.a := by unfold radius; simp
    rw [hr] at this ⊢
    simp only [Option.getD_some]
    linear_combination this
  · have hg : Good I (0, m) := ⟨hI.lt, by rw [e1]; simp, by rw [e2]; simpa using hm, by dsimp only; omega, hI.pos1, hI.pos2⟩
    have := gval_right (I := I) (M := (0, m)) (i := m - i) (by dsimp only; omega) (by dsimp only; omega)
    dsimp only at this
    rw [Nat.zero_add, flip, e2] at this
    rw [base _ hg (m - i) (by dsimp only; omega), this]
    have hc := hg.right hm
    have hr : radius I (0, m) = I.b - I.a := by unfold radius; simp
    rw [hr] at hc ⊢
    simp only [Option.getD_some]
    linear_combination hc
  · have e2' : I.mu2.isSome = true := Option.isSome_iff_ne_none.2 e2
    have hg : Good I (m, m') := ⟨hI.lt, by rw [e1]; simpa using hm, by rw [e2']; simpa using hm', by dsimp only; omega, hI.pos1, hI.pos2⟩
    rw [base _ hg i (by dsimp only; omega), gval_left (by dsimp only; omega) (by dsimp only; omega), e1]
    have := hg.left hm
    have hr : radius I (m, m') = 1 / 2 * (I.b - I.a) := by unfold radius; rw [if_pos ⟨hm, hm'⟩]
    rw [hr] at this ⊢
    simp only [Option.getD_some]
    linear_combination this
  · have e1' : I.mu1.isSome = true := Option.isSome_iff_ne_none.2 e1
    have hg : Good I (m', m) := ⟨hI.lt, by rw [e1']; simpa using hm', by rw [e2]; simpa using hm, by dsimp only; omega, hI.pos1, hI.pos2⟩
    have := gval_right (I := I) (M := (m', m)) (i := m - i) (by dsimp only; omega) (by dsimp only; omega)
    dsimp only at this
    rw [flip, e2] at this
    rw [base _ hg (m' + m - i) (by dsimp only; omega), show m' + m - i = m' + (m - i) by omega, this]
    have hc := hg.right hm
    have hr : radius I (m', m) = 1 / 2 * (I.b - I.a) := by unfold radius; rw [if_pos ⟨hm', hm⟩]
    rw [hr] at hc ⊢
    simp only [Option.getD_some]
    linear_combination hc

/-- Cases that meet the hypotheses. -/
theorem sample_case :
    (simpleInterval (0 : ℚ) 1 4 = ([0, 1 / 4, 1 / 2, 3 / 4, 1], [[0, 1], [1, 2], [2, 3], [3, 4]])) ∧
    ((intervalWithInteraction (1 / 100 : ℚ) 0 1 (1 / 2) (some (2 / 5)) true).1 = [-1 / 2, -1 / 4, 0, 1 / 3, 2 / 3, 1, 5 / 4, 3 / 2]) ∧
    ((intervalWithInteraction (1 / 100 : ℚ) 0 1 (1 / 2) (some (2 / 5)) false).1 = [-2 / 3, -1 / 3, 0, 1 / 3, 2 / 3, 1, 4 / 3, 5 / 3]) ∧
    ((doubleInterval (1 / 100 : ℚ) 0 1 2 (1 / 4) (1 / 2) none).map (fun m => m.1) =
      some [-1 / 4, 0, 1 / 4, 1 / 2, 3 / 4, 1, 5 / 4, 3 / 2, 7 / 4, 2, 9 / 4, 5 / 2]) ∧
    (Apart (1 / 100 : ℚ) (1 / 4) ∧ Apart (1 / 100 : ℚ) (1 / 2 - 1 / 4) ∧ Apart (1 / 100 : ℚ) (1 - 0 - 1 / 2)) ∧
    Adjacent [⟨0, 1, none, some 2⟩, ⟨1, 3, some 2, some 3⟩] := by
  refine ⟨by decide +kernel, by decide +kernel, by decide +kernel, by decide +kernel, ⟨?_, ?_, ?_⟩, ?_, ?_⟩
  · right; norm_num
  · right; norm_num
  · right; norm_num
  · intro I hI
    simp only [List.mem_cons, List.not_mem_nil, or_false] at hI
    rcases hI with rfl | rfl
    · exact ⟨by norm_num, by simp, by intro mu e; simp at e; rw [← e]; norm_num, by simp⟩
    · exact ⟨by norm_num, by intro mu e; simp at e; rw [← e]; norm_num, by intro mu e; simp at e; rw [← e]; norm_num, by simp⟩
  · simp

end PyNucleus.Props.C87
