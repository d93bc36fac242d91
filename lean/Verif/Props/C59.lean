import Verif.Props.C58
import Mathlib.Tactic.IntervalCases

/-!
# C59: distances of boxes and the position of far-field pairs relative to the horizon

Full statement: `distBoxes`, `maxDistBoxes`, `diamBox` are the least distance, the greatest distance and the greatest distance within a box; the points of a far-field pair are
separated by `max(diam)/eta`; far-field pairs of a finite-horizon kernel lie inside the horizon, those of its complement lie outside; pairs left out for a complement kernel do not
interact.

Violated: `maxDistBoxes` compares lower bounds only and is too small for boxes one of which contains the other in some dimension (`maxDist_iff` has the exact condition), so far-field
pairs can reach beyond the horizon (`far_inside_fails`) and interacting pairs of complement kernels are dropped (`complement_fails`).  Proved with the condition: `far_inside_partial`,
`complement_partial`; without it: the rest.
-/

namespace PyNucleus.Props.C59

open PyNucleus.ClusterPairs PyNucleus.Props.C58

variable {ν K : Type} [Field K] [LinearOrder K] [IsStrictOrderedRing K]

/-- A box with points. -/
def Inhabited (b : Box K) : Prop := ∀ iv ∈ b, iv.1 ≤ iv.2

/-- The centres of the boxes are in the order of the lower bounds, in each dimension. -/
def Centred (b1 b2 : Box K) : Prop := List.Forall₂ (fun i j => if i.1 > j.1 then j.1 + j.2 ≤ i.1 + i.2 else i.1 + i.2 ≤ j.1 + j.2) b1 b2

/-- `distBoxes` is the least distance. -/
theorem dist_exact (b1 b2 : Box K) (hl : b1.length = b2.length) (h1 : Inhabited b1) (h2 : Inhabited b2) :
    (∀ x y, InBox b1 x → InBox b2 y → dist2 b1 b2 ≤ ptDist2 x y) ∧ ∃ x y, InBox b1 x ∧ InBox b2 y ∧ ptDist2 x y = dist2 b1 b2 := by
  refine ⟨fun x y hx hy => dist2_le hx hy, ?_⟩
  induction b1 generalizing b2 with
  | nil =>
    cases b2 with
    | nil => exact ⟨[], [], .nil, .nil, rfl⟩
    | cons _ _ => simp at hl
  | cons iv b1 ih =>
    cases b2 with
    | nil => simp at hl
    | cons iw b2 =>
      obtain ⟨x, y, hx, hy, hxy⟩ := ih b2 (by simpa using hl) (fun a ha => h1 a (List.mem_cons_of_mem _ ha)) (fun a ha => h2 a (List.mem_cons_of_mem _ ha))
      have i1 := h1 iv (List.mem_cons_self ..)
      have i2 := h2 iw (List.mem_cons_self ..)
      obtain ⟨l1, u1⟩ := iv
      obtain ⟨l2, u2⟩ := iw
      dsimp only at i1 i2
      unfold dist2
      dsimp only
      split
      · rename_i hlt
        by_cases hov : l1 - u2 ≤ 0
        · refine ⟨l1 :: x, l1 :: y, .cons ⟨le_rfl, i1⟩ hx, .cons ⟨le_of_lt hlt, by dsimp only; linarith⟩ hy, ?_⟩
          simp [ptDist2, hxy, max_eq_right hov]
        · refine ⟨l1 :: x, u2 :: y, .cons ⟨le_rfl, i1⟩ hx, .cons ⟨i2, le_rfl⟩ hy, ?_⟩
          simp [ptDist2, hxy, max_eq_left (le_of_lt (not_le.1 hov))]
      · rename_i hlt
        have hlt := not_lt.1 hlt
        by_cases hov : l2 - u1 ≤ 0
        · refine ⟨l2 :: x, l2 :: y, .cons ⟨hlt, by dsimp only; linarith⟩ hx, .cons ⟨le_rfl, i2⟩ hy, ?_⟩
          simp [ptDist2, hxy, max_eq_right hov]
        · refine ⟨u1 :: x, l2 :: y, .cons ⟨i1, le_rfl⟩ hx, .cons ⟨le_rfl, i2⟩ hy, ?_⟩
          simp only [ptDist2, hxy, max_eq_left (le_of_lt (not_le.1 hov))]
          ring

private theorem sq_le_of_abs {a b : K} (h1 : -b ≤ a) (h2 : a ≤ b) : a ^ 2 ≤ b ^ 2 := by
  have := abs_le.2 ⟨h1, h2⟩
  rw [← sq_abs a]
  exact pow_le_pow_left₀ (abs_nonneg a) this 2

private theorem sq_diff_le {v w l1 u1 l2 u2 m : K} (hv : l1 ≤ v ∧ v ≤ u1) (hw : l2 ≤ w ∧ w ≤ u2) (m1 : u1 - l2 ≤ m) (m2 : u2 - l1 ≤ m) : (v - w) ^ 2 ≤ m ^ 2 :=
  sq_le_of_abs (by linarith [hv.1, hw.2]) (by linarith [hv.2, hw.1])

/-- `diamBox` is the greatest distance of two points of the box. -/
theorem diam_exact (b : Box K) (hb : Inhabited b) :
    (∀ x y, InBox b x → InBox b y → ptDist2 x y ≤ diam2 b) ∧ ∃ x y, InBox b x ∧ InBox b y ∧ ptDist2 x y = diam2 b := by
  induction b with
  | nil =>
    refine ⟨fun x y hx hy => ?_, [], [], .nil, .nil, rfl⟩
    cases hx; cases hy; simp [ptDist2, diam2]
  | cons iv b ih =>
    obtain ⟨hle, x, y, hx, hy, hxy⟩ := ih fun a ha => hb a (List.mem_cons_of_mem _ ha)
    have i1 := hb iv (List.mem_cons_self ..)
    refine ⟨fun x y hx hy => ?_, iv.2 :: x, iv.1 :: y, .cons ⟨i1, le_rfl⟩ hx, .cons ⟨le_rfl, i1⟩ hy, by simp [ptDist2, diam2, hxy]⟩
    cases hx with
    | cons h1 hx =>
      cases hy with
      | cons h2 hy =>
        have := hle _ _ hx hy
        unfold ptDist2 diam2
        have := sq_diff_le (m := iv.2 - iv.1) h1 h2 le_rfl le_rfl
        linarith

/-- The greatest distance of points of two boxes. -/
def farthest2 : Box K → Box K → K
  | (l1, u1) :: r, (l2, u2) :: s => max (u1 - l2) (u2 - l1) ^ 2 + farthest2 r s
  | _, _ => 0

private theorem farthest_exact (b1 b2 : Box K) (hl : b1.length = b2.length) (h1 : Inhabited b1) (h2 : Inhabited b2) :
    (∀ x y, InBox b1 x → InBox b2 y → ptDist2 x y ≤ farthest2 b1 b2) ∧ ∃ x y, InBox b1 x ∧ InBox b2 y ∧ ptDist2 x y = farthest2 b1 b2 := by
  induction b1 generalizing b2 with
  | nil =>
    cases b2 with
    | nil =>
      refine ⟨fun x y hx hy => ?_, [], [], .nil, .nil, rfl⟩
      cases hx; cases hy; simp [ptDist2, farthest2]
    | cons _ _ => simp at hl
  | cons iv b1 ih =>
    cases b2 with
    | nil => simp at hl
    | cons iw b2 =>
      obtain ⟨hle, x, y, hx, hy, hxy⟩ := ih b2 (by simpa using hl) (fun a ha => h1 a (List.mem_cons_of_mem _ ha)) (fun a ha => h2 a (List.mem_cons_of_mem _ ha))
      have i1 := h1 iv (List.mem_cons_self ..)
      have i2 := h2 iw (List.mem_cons_self ..)
      obtain ⟨l1, u1⟩ := iv
      obtain ⟨l2, u2⟩ := iw
      dsimp only at i1 i2
      refine ⟨fun x y hx hy => ?_, ?_⟩
      · cases hx with
        | cons g1 hx =>
          cases hy with
          | cons g2 hy =>
            have := hle _ _ hx hy
            unfold ptDist2 farthest2
            dsimp only at g1 g2
            have m1 := le_max_left (u1 - l2) (u2 - l1)
            have m2 := le_max_right (u1 - l2) (u2 - l1)
            have := sq_diff_le g1 g2 m1 m2
            linarith
      · unfold farthest2
        rcases le_total (u1 - l2) (u2 - l1) with hm | hm
        · refine ⟨l1 :: x, u2 :: y, .cons ⟨le_rfl, i1⟩ hx, .cons ⟨i2, le_rfl⟩ hy, ?_⟩
          simp only [ptDist2, hxy, max_eq_right hm]
          ring
        · refine ⟨u1 :: x, l2 :: y, .cons ⟨i1, le_rfl⟩ hx, .cons ⟨le_rfl, i2⟩ hy, ?_⟩
          simp only [ptDist2, hxy, max_eq_left hm]

private theorem maxDist_le (b1 b2 : Box K) (hl : b1.length = b2.length) (h1 : Inhabited b1) (h2 : Inhabited b2) :
    maxDist2 b1 b2 ≤ farthest2 b1 b2 ∧ (farthest2 b1 b2 ≤ maxDist2 b1 b2 ↔ Centred b1 b2) := by
  induction b1 generalizing b2 with
  | nil =>
    cases b2 with
    | nil => exact ⟨by simp [maxDist2, farthest2], by simp [maxDist2, farthest2, Centred]⟩
    | cons _ _ => simp at hl
  | cons iv b1 ih =>
    cases b2 with
    | nil => simp at hl
    | cons iw b2 =>
      obtain ⟨hle, hiff⟩ := ih b2 (by simpa using hl) (fun a ha => h1 a (List.mem_cons_of_mem _ ha)) (fun a ha => h2 a (List.mem_cons_of_mem _ ha))
      have i1 := h1 iv (List.mem_cons_self ..)
      have i2 := h2 iw (List.mem_cons_self ..)
      obtain ⟨l1, u1⟩ := iv
      obtain ⟨l2, u2⟩ := iw
      dsimp only at i1 i2
      unfold maxDist2 farthest2
      unfold Centred at hiff ⊢
      rw [List.forall₂_cons, ← hiff]
      dsimp only
      have key : ∀ p q : K, 0 ≤ p → (max p 0 ^ 2 + maxDist2 b1 b2 ≤ max p q ^ 2 + farthest2 b1 b2 ∧
          (max p q ^ 2 + farthest2 b1 b2 ≤ max p 0 ^ 2 + maxDist2 b1 b2 ↔ q ≤ p ∧ farthest2 b1 b2 ≤ maxDist2 b1 b2)) := by
        intro p q hp
        rw [max_eq_left hp]
        rcases le_or_gt q p with h | h
        · rw [max_eq_left h]
          refine ⟨by linarith, ⟨fun g => ⟨h, by linarith⟩, fun g => by linarith [g.2]⟩⟩
        · rw [max_eq_right h.le]
          have : p ^ 2 < q ^ 2 := by nlinarith
          exact ⟨by linarith, ⟨fun g => by linarith, fun g => absurd g.1 (not_le.2 h)⟩⟩
      split
      · rename_i hlt
        have := key (u1 - l2) (u2 - l1) (by linarith)
        refine ⟨this.1, this.2.trans ?_⟩
        exact and_congr_left fun _ => ⟨fun h => by linarith, fun h => by linarith⟩
      · rename_i hlt
        have := key (u2 - l1) (u1 - l2) (by linarith [not_lt.1 hlt])
        rw [max_comm (u1 - l2)]
        refine ⟨this.1, this.2.trans ?_⟩
        exact and_congr_left fun _ => ⟨fun h => by linarith, fun h => by linarith⟩

/-- `maxDistBoxes` never exceeds the greatest distance, and bounds all distances exactly if the boxes are centred. -/
theorem maxDist_iff (b1 b2 : Box K) (hl : b1.length = b2.length) (h1 : Inhabited b1) (h2 : Inhabited b2) :
    (∃ x y, InBox b1 x ∧ InBox b2 y ∧ maxDist2 b1 b2 ≤ ptDist2 x y) ∧ ((∀ x y, InBox b1 x → InBox b2 y → ptDist2 x y ≤ maxDist2 b1 b2) ↔ Centred b1 b2) := by
  obtain ⟨hle, hiff⟩ := maxDist_le b1 b2 hl h1 h2
  obtain ⟨hub, x, y, hx, hy, hxy⟩ := farthest_exact b1 b2 hl h1 h2
  refine ⟨⟨x, y, hx, hy, by rw [hxy]; exact hle⟩, ?_⟩
  rw [← hiff]
  exact ⟨fun h => hxy ▸ h x y hx hy, fun h x y hx hy => (hub x y hx hy).trans h⟩

/-- The boxes of all clusters are nonempty and have the same dimension. -/
def GoodBoxes (S : Setup ν K) : Prop := (∀ n, Inhabited (S.box n)) ∧ ∀ n m, (S.box n).length = (S.box m).length

private theorem far_verdict {S : Setup ν K} (hsplit : Splits S) (rem : Nat) (n1 n2 : ν) {q : Nat × ν × ν} (hq : q ∈ (getAdmissible S rem n1 n2 ⟨[], []⟩).1.far) :
    verdict S q.2.1 q.2.2 = .admissible := by
  obtain ⟨A, B, C, e⟩ := effect_getAdmissible hsplit rem n1 n2 ⟨[], []⟩
  rw [e.far] at hq
  exact e.adm q (by simpa using hq)

private theorem seems_of {S : Setup ν K} {n1 n2 : ν} (h : verdict S n1 n2 = .admissible) : S.seems n1 n2 = true := by
  unfold verdict at h
  cases hs : S.seems n1 n2 with
  | true => rfl
  | false =>
    exfalso
    simp only [hs] at h
    split at h
    · cases h
    · split at h
      · cases h
      · split at h
        · cases h
        · split at h <;> cases h

/-- Far-field pairs consist of clusters that are not mixed and can be assembled, have no fewer dof pairs than coefficients, and are separated. -/
theorem far_separated (S : Setup ν K) (hsplit : Splits S) (hsq : IsSqrt S.sqrt) (hbox : GoodBoxes S) (heta : 0 ≤ S.eta) (rem : Nat) (n1 n2 : ν)
    (l : Nat) (m1 m2 : ν) (hq : (l, m1, m2) ∈ (getAdmissible S rem n1 n2 ⟨[], []⟩).1.far) :
    S.mixed m1 = false ∧ S.mixed m2 = false ∧ S.assembled m1 = true ∧ S.assembled m2 = true ∧ (S.order m1 * S.order m2) ^ S.dim ≤ (S.dofs m1).length * (S.dofs m2).length ∧
      ∀ x y, InBox (S.box m1) x → InBox (S.box m2) y → ∀ u v, (InBox (S.box m1) u ∧ InBox (S.box m1) v) ∨ (InBox (S.box m2) u ∧ InBox (S.box m2) v) →
        ptDist2 u v ≤ S.eta ^ 2 * ptDist2 x y := by
  have hs := seems_of (far_verdict hsplit rem n1 n2 hq)
  simp only [Setup.seems, Setup.farSize, Setup.numDofs, Bool.and_eq_true, Bool.not_eq_true', decide_eq_true_eq] at hs
  obtain ⟨⟨⟨⟨⟨hd, hm1⟩, hm2⟩, hn⟩, ha1⟩, ha2⟩ := hs
  refine ⟨hm1, hm2, ha1, ha2, of_decide_eq_true hn, ?_⟩
  intro x y hx hy u v huv
  have hdist := dist2_le hx hy
  have sd := hsq _ (dist2_nonneg (S.box m1) (S.box m2))
  have hx1 : ∀ m : ν, S.diam m ≤ S.eta * S.dist m1 m2 → ptDist2 u v ≤ diam2 (S.box m) → ptDist2 u v ≤ S.eta ^ 2 * ptDist2 x y := by
    intro m hm hle
    have hnn : (0 : K) ≤ diam2 (S.box m) := by
      obtain ⟨-, x', y', -, -, he⟩ := diam_exact (S.box m) (hbox.1 m)
      have h0 : ∀ a b : List K, 0 ≤ ptDist2 a b := by
        intro a
        induction a with
        | nil => intro b; simp [ptDist2]
        | cons a r ih =>
          intro b
          cases b with
          | nil => simp [ptDist2]
          | cons b s => have := ih s; unfold ptDist2; positivity
      rw [← he]; exact h0 _ _
    have sm := hsq _ hnn
    unfold Setup.diam Setup.dist at hm
    have h1 : S.sqrt (diam2 (S.box m)) ^ 2 ≤ (S.eta * S.sqrt (dist2 (S.box m1) (S.box m2))) ^ 2 := pow_le_pow_left₀ sm.1 hm 2
    have h2 : (S.eta * S.sqrt (dist2 (S.box m1) (S.box m2))) ^ 2 = S.eta ^ 2 * dist2 (S.box m1) (S.box m2) := by
      rw [mul_pow, pow_two (S.sqrt _), sd.2]
    have h3 : S.eta ^ 2 * dist2 (S.box m1) (S.box m2) ≤ S.eta ^ 2 * ptDist2 x y := mul_le_mul_of_nonneg_left hdist (by positivity)
    rw [pow_two, sm.2] at h1
    linarith
  rcases huv with ⟨hu, hv⟩ | ⟨hu, hv⟩
  · exact hx1 m1 (le_trans (le_max_left _ _) hd) ((diam_exact _ (hbox.1 m1)).1 u v hu hv)
  · exact hx1 m2 (le_trans (le_max_right _ _) hd) ((diam_exact _ (hbox.1 m2)).1 u v hu hv)

/-- Far-field pairs of a complement kernel lie beyond the horizon. -/
theorem far_outside (S : Setup ν K) (hsplit : Splits S) (hsq : IsSqrt S.sqrt) (hc : S.complement = true) (h : K) (h0 : 0 ≤ h) (hh : S.horizon = some h) (rem : Nat) (n1 n2 : ν)
    (l : Nat) (m1 m2 : ν) (hq : (l, m1, m2) ∈ (getAdmissible S rem n1 n2 ⟨[], []⟩).1.far) (x y : List K) (hx : InBox (S.box m1) x) (hy : InBox (S.box m2) y) :
    h ^ 2 < ptDist2 x y := by
  have hv := far_verdict hsplit rem n1 n2 hq
  unfold verdict at hv
  simp only [hh, hc, Bool.not_true, Bool.false_and, Bool.true_and, Bool.false_eq_true, if_false, decide_eq_true_eq] at hv
  split at hv
  · cases hv
  · rename_i hmax
    split at hv
    · cases hv
    · rename_i hno
      have hd : h < S.dist m1 m2 := by
        by_contra hlt
        exact hno ⟨not_lt.1 hlt, le_of_lt (not_le.1 hmax)⟩
      have sd := hsq _ (dist2_nonneg (S.box m1) (S.box m2))
      have := dist2_le hx hy
      unfold Setup.dist at hd
      nlinarith [sd.1, sd.2]

/-- Far-field pairs of a finite-horizon kernel lie within the horizon if their boxes are centred. -/
theorem far_inside_partial (S : Setup ν K) (hsplit : Splits S) (hsq : IsSqrt S.sqrt) (hbox : GoodBoxes S) (hc : S.complement = false) (h : K) (hh : S.horizon = some h) (rem : Nat) (n1 n2 : ν)
    (l : Nat) (m1 m2 : ν) (hq : (l, m1, m2) ∈ (getAdmissible S rem n1 n2 ⟨[], []⟩).1.far) (hcen : Centred (S.box m1) (S.box m2))
    (x y : List K) (hx : InBox (S.box m1) x) (hy : InBox (S.box m2) y) : ptDist2 x y < h ^ 2 := by
  have hv := far_verdict hsplit rem n1 n2 hq
  unfold verdict at hv
  simp only [hh, hc, Bool.not_false, Bool.true_and, Bool.false_and, Bool.false_eq_true, if_false, decide_eq_true_eq] at hv
  split at hv
  · cases hv
  · rename_i hd
    split at hv
    · cases hv
    · rename_i hno
      have hm : S.maxDist m1 m2 < h := by
        by_contra hlt
        exact hno ⟨not_lt.1 hd, not_lt.1 hlt⟩
      have sm := hsq _ (maxDist2_nonneg (S.box m1) (S.box m2))
      have := ((maxDist_iff _ _ (hbox.2 m1 m2) (hbox.1 m1) (hbox.1 m2)).2.2 hcen) x y hx hy
      unfold Setup.maxDist at hm
      nlinarith [sm.1, sm.2]

/-- A complement kernel: every pair of dofs with points beyond the horizon is covered once, if the boxes of the pairs of clusters that are left out are centred. -/
theorem complement_partial (S : Setup ν K) (hsplit : Splits S) (hsq : IsSqrt S.sqrt) (hbox : GoodBoxes S) (hc : S.complement = true) (h : K) (h0 : 0 ≤ h) (hh : S.horizon = some h)
    (support : Nat → List K → Prop) (he : Encloses S support) (rem : Nat) (n1 n2 : ν) (hcen : ∀ m1 m2, Visited S (n1, n2) (m1, m2) → S.maxDist m1 m2 ≤ h → Centred (S.box m1) (S.box m2)) (h1 : (S.dofs n1).Nodup) (h2 : (S.dofs n2).Nodup)
    (i j : Nat) (hi : i ∈ S.dofs n1) (hj : j ∈ S.dofs n2) (x y : List K) (hx : support i x) (hy : support j y) (hxy : h ^ 2 < ptDist2 x y) :
    C58.covering S ((getAdmissible S rem n1 n2 ⟨[], []⟩).1.near ++ (getAdmissible S rem n1 n2 ⟨[], []⟩).1.far.map Prod.snd) i j = 1 := by
  obtain ⟨A, B, C, e⟩ := effect_getAdmissible hsplit rem n1 n2 ⟨[], []⟩
  have hcov := e.cover i j
  rw [cover_eq_countP (fun p hp => ⟨nodup_below hsplit (e.sub p hp).toBelow.1 h1, nodup_below hsplit (e.sub p hp).toBelow.2 h2⟩)] at hcov
  have hone : cover S.dofs [(n1, n2)] i j = 1 := by simp [cover, h1.count, h2.count, hi, hj]
  rw [hone, List.countP_append] at hcov
  rw [e.near, e.far]
  simp only [List.nil_append]
  unfold C58.covering
  have hz : C.countP (fun p => decide (i ∈ S.dofs p.1 ∧ j ∈ S.dofs p.2)) = 0 := by
    rw [List.countP_eq_zero]
    intro p hp hm
    have hv := e.zero p hp
    obtain ⟨hm1, hm2⟩ := of_decide_eq_true hm
    unfold verdict at hv
    simp only [hh, hc, Bool.not_true, Bool.false_and, Bool.true_and, Bool.false_eq_true, if_false, decide_eq_true_eq] at hv
    split at hv
    · rename_i hmax
      have sm := hsq _ (maxDist2_nonneg (S.box p.1) (S.box p.2))
      have := ((maxDist_iff _ _ (hbox.2 p.1 p.2) (hbox.1 p.1) (hbox.1 p.2)).2.2 (hcen _ _ (e.sub p (by simp [hp])) hmax)) x y (he _ _ hm1 x hx) (he _ _ hm2 y hy)
      unfold Setup.maxDist at hmax
      nlinarith [sm.1, sm.2]
    · split at hv
      · cases hv
      · split at hv <;> cases hv
  omega

/-! ## Witnesses -/

/-- Two clusters in the plane without children. -/
def two (F : Type) [Field F] (b1 b2 : Box F) (sqrt : F → F) (complement : Bool) (h : F) : Setup Bool F where
  box n := if n then b1 else b2
  dofs n := if n then [0] else [1]
  children _ := []
  mixed _ := false
  assembled _ := true
  order _ := 1
  eta := 3
  maxLevels := 5
  dim := 2
  horizon := some h
  complement := complement
  sqrt := sqrt

private theorem real_sqrt : IsSqrt Real.sqrt := fun a ha => ⟨Real.sqrt_nonneg a, Real.mul_self_sqrt ha⟩

private theorem sqrt_le_num {a b : ℝ} (hb : 0 ≤ b) (h : a ≤ b ^ 2) : Real.sqrt a ≤ b := Real.sqrt_le_iff.2 ⟨hb, h⟩

private theorem le_sqrt_num {a b : ℝ} (hb : 0 ≤ b) (h : b ^ 2 ≤ a) : b ≤ Real.sqrt a := Real.le_sqrt_of_sq_le h

/-- Complement kernel with horizon 5, boxes `[0,10]×[0,1]` and `[1,2]×[1,2]`: the pair is dropped although points are at a distance of `√85`. -/
theorem complement_fails :
    let S := two ℝ [(0, 10), (0, 1)] [(1, 2), (1, 2)] Real.sqrt true 5
    (getAdmissible S 5 true false ⟨[], []⟩).1.near = [] ∧ (getAdmissible S 5 true false ⟨[], []⟩).1.far = [] ∧
      ∃ x y, InBox (S.box true) x ∧ InBox (S.box false) y ∧ (5 : ℝ) ^ 2 < ptDist2 x y := by
  dsimp only
  have hv : verdict (two ℝ [(0, 10), (0, 1)] [(1, 2), (1, 2)] Real.sqrt true 5) true false = .zero := by
    have hm : Setup.maxDist (two ℝ [(0, 10), (0, 1)] [(1, 2), (1, 2)] Real.sqrt true 5) true false ≤ 5 := by
      unfold Setup.maxDist
      refine sqrt_le_num (by norm_num) ?_
      norm_num [two, maxDist2]
    unfold verdict
    simp only [two] at hm ⊢
    simp [hm]
  refine ⟨by simp [getAdmissible, hv], by simp [getAdmissible, hv], [10, 0], [1, 2], ?_, ?_, ?_⟩
  · norm_num [InBox, two]
  · norm_num [InBox, two]
  · norm_num [ptDist2]

/-- Horizon 13, boxes `[0,10]×[0,1]` and `[1,2]×[11,12]`: a far-field pair with points at a distance of 15. -/
theorem far_inside_fails :
    let S := two ℝ [(0, 10), (0, 1)] [(1, 2), (11, 12)] Real.sqrt false 13
    (getAdmissible S 5 true false ⟨[], []⟩).1.far = [(0, true, false)] ∧
      ∃ x y, InBox (S.box true) x ∧ InBox (S.box false) y ∧ (13 : ℝ) ^ 2 < ptDist2 x y := by
  dsimp only
  have hv : verdict (two ℝ [(0, 10), (0, 1)] [(1, 2), (11, 12)] Real.sqrt false 13) true false = .admissible := by
    have hm : ¬ 13 ≤ Setup.maxDist (two ℝ [(0, 10), (0, 1)] [(1, 2), (11, 12)] Real.sqrt false 13) true false := by
      rw [not_le]
      unfold Setup.maxDist
      refine lt_of_le_of_lt (sqrt_le_num (b := 12.5) (by norm_num) ?_) (by norm_num)
      norm_num [two, maxDist2]
    have hd : Setup.dist (two ℝ [(0, 10), (0, 1)] [(1, 2), (11, 12)] Real.sqrt false 13) true false = 10 := by
      unfold Setup.dist
      have : dist2 ((two ℝ [(0, 10), (0, 1)] [(1, 2), (11, 12)] Real.sqrt false 13).box true) ((two ℝ [(0, 10), (0, 1)] [(1, 2), (11, 12)] Real.sqrt false 13).box false) = 10 ^ 2 := by
        norm_num [two, dist2]
      rw [this]
      exact Real.sqrt_sq (by norm_num)
    have h1 : Setup.diam (two ℝ [(0, 10), (0, 1)] [(1, 2), (11, 12)] Real.sqrt false 13) true ≤ 30 := by
      unfold Setup.diam
      refine sqrt_le_num (by norm_num) ?_
      norm_num [two, diam2]
    have h2 : Setup.diam (two ℝ [(0, 10), (0, 1)] [(1, 2), (11, 12)] Real.sqrt false 13) false ≤ 30 := by
      unfold Setup.diam
      refine sqrt_le_num (by norm_num) ?_
      norm_num [two, diam2]
    have hs : Setup.seems (two ℝ [(0, 10), (0, 1)] [(1, 2), (11, 12)] Real.sqrt false 13) true false = true := by
      unfold Setup.seems
      rw [hd]
      simp only [Bool.and_eq_true, decide_eq_true_eq]
      refine ⟨⟨⟨⟨⟨?_, rfl⟩, rfl⟩, ?_⟩, rfl⟩, rfl⟩
      · have : (two ℝ [(0, 10), (0, 1)] [(1, 2), (11, 12)] Real.sqrt false 13).eta * 10 = 30 := by norm_num [two]
        rw [this]
        exact max_le h1 h2
      · decide
    unfold verdict
    rw [hs, hd]
    simp only [two] at hm ⊢
    norm_num [hm]
  refine ⟨by simp only [getAdmissible, hv]; rfl, [10, 0], [1, 12], ?_, ?_, ?_⟩
  · norm_num [InBox, two]
  · norm_num [InBox, two]
  · norm_num [ptDist2]

/-! ## Concrete cases -/

/-- Far-field pairs of `four` with an infinite horizon. -/
example : (2, 3, 5) ∈ (getAdmissible (four Rat root none) 5 0 0 ⟨[], []⟩).1.far := by decide +kernel

/-- With the horizon 7 the far-field pair `(3, 5)` lies inside, its boxes are centred; the others are near. -/
example : (getAdmissible (four Rat root (some 7)) 5 0 0 ⟨[], []⟩).1.far = [(2, 3, 5), (2, 4, 6), (2, 5, 3), (2, 6, 4)] ∧ maxDist2 ((four Rat root none).box 3) ((four Rat root none).box 5) = 36 := by decide +kernel

example : Centred ((four Rat root (some 7)).box 3) ((four Rat root (some 7)).box 5) := by
  refine .cons ?_ .nil
  decide +kernel

example : GoodBoxes (two ℝ [(0, 10), (0, 1)] [(1, 2), (11, 12)] Real.sqrt false 13) := by
  refine ⟨fun n => ?_, fun n m => ?_⟩
  · cases n <;> intro iv h <;> simp [two] at h <;> rcases h with rfl | rfl <;> norm_num
  · cases n <;> cases m <;> rfl

/-- Complement kernel of `four`: the pairs at a distance are far-field pairs. -/
example : (getAdmissible { four Rat root (some 1) with complement := true } 5 0 0 ⟨[], []⟩).1.far = [(2, 3, 5), (2, 3, 6), (2, 4, 6), (2, 5, 3), (2, 6, 3), (2, 6, 4)] := by decide +kernel

/-- The pairs of `four` that are left out for the complement of the horizon 3 are those of equal clusters, so they are centred. -/
example : ∀ m1 m2, Visited (four ℝ Real.sqrt (some 3)) (0, 0) (m1, m2) → (four ℝ Real.sqrt (some 3)).maxDist m1 m2 ≤ 3 → Centred ((four ℝ Real.sqrt (some 3)).box m1) ((four ℝ Real.sqrt (some 3)).box m2) := by
  have hvis : ∀ p q : Nat × Nat, Visited (four ℝ Real.sqrt (some 3)) p q → (p.1 = 0 ∧ p.2 = 0 ∨ (p.1 = 1 ∨ p.1 = 2) ∧ (p.2 = 1 ∨ p.2 = 2) ∨ (3 ≤ p.1 ∧ p.1 < 7 ∧ 3 ≤ p.2 ∧ p.2 < 7)) →
      (q.1 = 0 ∧ q.2 = 0 ∨ (q.1 = 1 ∨ q.1 = 2) ∧ (q.2 = 1 ∨ q.2 = 2) ∨ (3 ≤ q.1 ∧ q.1 < 7 ∧ 3 ≤ q.2 ∧ q.2 < 7)) := by
    intro p q h
    induction h with
    | refl => exact id
    | @step p c q hc _ ih =>
      intro hp
      apply ih
      obtain ⟨a, b⟩ := p
      obtain ⟨c1, c2⟩ := c
      dsimp only at hp hc ⊢
      rcases hp with ⟨rfl, rfl⟩ | ⟨rfl | rfl, rfl | rfl⟩ | ⟨h1, h2, h3, h4⟩
      · simp [childPairs, four] at hc; omega
      · simp [childPairs, four] at hc; omega
      · simp [childPairs, four] at hc; omega
      · simp [childPairs, four] at hc; omega
      · simp [childPairs, four] at hc; omega
      · simp [childPairs, four, show a ≠ 0 by omega, show a ≠ 1 by omega, show a ≠ 2 by omega, show b ≠ 0 by omega, show b ≠ 1 by omega, show b ≠ 2 by omega] at hc
  intro m1 m2 hv _
  have := hvis _ _ hv (.inl ⟨rfl, rfl⟩)
  dsimp only at this
  rcases this with ⟨rfl, rfl⟩ | ⟨rfl | rfl, rfl | rfl⟩ | ⟨h1, h2, h3, h4⟩
  · norm_num [Centred, four]
  · norm_num [Centred, four]
  · norm_num [Centred, four]
  · norm_num [Centred, four]
  · norm_num [Centred, four]
  · interval_cases m1 <;> interval_cases m2 <;> norm_num [Centred, four]

end PyNucleus.Props.C59
