import Verif.Model.ClusterPairs
import Mathlib.Algebra.Order.Ring.Defs
import Mathlib.Algebra.BigOperators.Group.List.Basic
import Mathlib.Tactic.Ring
import Mathlib.Tactic.Linarith
import Mathlib.Tactic.Positivity
import Mathlib.Algebra.Order.Ring.Abs

/-! Covering of dof pairs by cluster pairs. -/

namespace PyNucleus.ClusterPairs

variable {ν K : Type} [Field K] [LinearOrder K]

/-- How often the pairs of a list cover a pair of dofs. -/
def cover (dofs : ν → List Nat) (L : List (ν × ν)) (i j : Nat) : Nat := (L.map fun p => (dofs p.1).count i * (dofs p.2).count j).sum

theorem cover_append (dofs : ν → List Nat) (L M : List (ν × ν)) (i j : Nat) : cover dofs (L ++ M) i j = cover dofs L i j + cover dofs M i j := by
  simp [cover]

/-- The dofs of a cluster with children are those of the children. -/
def Splits (S : Setup ν K) : Prop := ∀ n, S.children n ≠ [] → (S.dofs n).Perm ((S.children n).flatMap S.dofs)

theorem count_children {S : Setup ν K} (h : Splits S) (n : ν) (hn : S.children n ≠ []) (i : Nat) :
    (S.dofs n).count i = ((S.children n).map fun c => (S.dofs c).count i).sum := by
  rw [(h n hn).count_eq, List.count_flatMap]; rfl

theorem sum_map_mul_left (l : List ν) (f : ν → Nat) (a : Nat) : (l.map fun c => a * f c).sum = a * (l.map f).sum := by
  induction l with
  | nil => simp
  | cons c l ih => simp [ih, Nat.mul_add]

theorem sum_map_mul_right (l : List ν) (f : ν → Nat) (a : Nat) : (l.map fun c => f c * a).sum = (l.map f).sum * a := by
  induction l with
  | nil => simp
  | cons c l ih => simp [ih, Nat.add_mul]

theorem cover_childPairs {S : Setup ν K} (h : Splits S) (n1 n2 : ν) (hn : ¬ ((S.children n1).isEmpty && (S.children n2).isEmpty)) (i j : Nat) :
    cover S.dofs (childPairs S n1 n2) i j = (S.dofs n1).count i * (S.dofs n2).count j := by
  unfold childPairs
  by_cases h1 : S.children n1 = []
  · have h2 : S.children n2 ≠ [] := by intro h2; simp [h1, h2] at hn
    simp only [h1, List.isEmpty_nil, if_true, cover, List.map_map, Function.comp_def]
    rw [sum_map_mul_left, count_children h n2 h2]
  · by_cases h2 : S.children n2 = []
    · simp only [List.isEmpty_iff, h1, h2, if_false, if_true, cover, List.map_map, Function.comp_def]
      rw [sum_map_mul_right, count_children h n1 h1]
    · simp only [List.isEmpty_iff, h1, h2, if_false, cover]
      rw [count_children h n1 h1, ← sum_map_mul_right]
      induction S.children n1 with
      | nil => simp
      | cons c l ih => simp only [List.flatMap_cons, List.map_append, List.sum_append, List.map_map, Function.comp_def, ih, List.map_cons, List.sum_cons, sum_map_mul_left, count_children h n2 h2]

/-- What a call appends: near pairs `A`, far pairs `B`; `C` are the pairs left out. -/
structure Effect (S : Setup ν K) (P : ν × ν → Prop) (L : List (ν × ν)) (st : Pairs ν) (r : Pairs ν × Bool) (b : Bool) (A : List (ν × ν)) (B : List (Nat × ν × ν)) (C : List (ν × ν)) : Prop where
  near : r.1.near = st.near ++ A
  far : r.1.far = st.far ++ B
  flag : r.2 = false → b = false ∧ B = [] ∧ C = []
  zero : ∀ p ∈ C, verdict S p.1 p.2 = .zero
  adm : ∀ q ∈ B, verdict S q.2.1 q.2.2 = .admissible
  level : ∀ q ∈ B, q.1 ≤ S.maxLevels
  sub : ∀ p ∈ A ++ B.map Prod.snd ++ C, P p
  cover : ∀ i j, cover S.dofs (A ++ B.map Prod.snd ++ C) i j = cover S.dofs L i j

theorem effect_fold {S : Setup ν K} {P : ν × ν → Prop} (rec : ν → ν → Pairs ν → Pairs ν × Bool) (L : List (ν × ν))
    (hrec : ∀ p ∈ L, ∀ st, ∃ A B C, Effect S P [p] st (rec p.1 p.2 st) false A B C) (st : Pairs ν) (b : Bool) :
    ∃ A B C, Effect S P L st (L.foldl (visit rec) (st, b)) b A B C := by
  induction L generalizing st b with
  | nil => exact ⟨[], [], [], ⟨by simp, by simp, fun h => ⟨h, rfl, rfl⟩, by simp, by simp, by simp, by simp, by simp⟩⟩
  | cons p L ih =>
    obtain ⟨A1, B1, C1, e1⟩ := hrec p (List.mem_cons_self ..) st
    obtain ⟨A2, B2, C2, e2⟩ := ih (fun q hq => hrec q (List.mem_cons_of_mem _ hq)) (rec p.1 p.2 st).1 (b || (rec p.1 p.2 st).2)
    refine ⟨A1 ++ A2, B1 ++ B2, C1 ++ C2, ?_⟩
    simp only [List.foldl_cons]
    have hv : visit rec (st, b) p = ((rec p.1 p.2 st).1, b || (rec p.1 p.2 st).2) := rfl
    rw [hv]
    refine ⟨?_, ?_, ?_, ?_, ?_, ?_, ?_, ?_⟩
    · rw [e2.near, e1.near, List.append_assoc]
    · rw [e2.far, e1.far, List.append_assoc]
    · intro h
      obtain ⟨hb, hB, hC⟩ := e2.flag h
      simp only [Bool.or_eq_false_iff] at hb
      obtain ⟨-, hB1, hC1⟩ := e1.flag hb.2
      exact ⟨hb.1, by simp [hB, hB1], by simp [hC, hC1]⟩
    · intro q hq
      rcases List.mem_append.1 hq with hq | hq
      · exact e1.zero q hq
      · exact e2.zero q hq
    · intro q hq
      rcases List.mem_append.1 hq with hq | hq
      · exact e1.adm q hq
      · exact e2.adm q hq
    · intro q hq
      rcases List.mem_append.1 hq with hq | hq
      · exact e1.level q hq
      · exact e2.level q hq
    · intro q hq
      have h1 := e1.sub q
      have h2 := e2.sub q
      simp only [List.map_append, List.mem_append] at hq h1 h2
      tauto
    · intro i j
      have h1 := e1.cover i j
      have h2 := e2.cover i j
      have h3 : cover S.dofs (p :: L) i j = cover S.dofs [p] i j + cover S.dofs L i j := by simp [cover]
      rw [h3, ← h1, ← h2]
      simp only [List.map_append, cover_append]
      ring

/-- `q` is reached from `p` by descending in the tree. -/
inductive Below (S : Setup ν K) : ν → ν → Prop
  | refl (n : ν) : Below S n n
  | step {n c m : ν} : c ∈ S.children n → Below S c m → Below S n m

theorem mem_childPairs {S : Setup ν K} {n1 n2 : ν} {p : ν × ν} (hp : p ∈ childPairs S n1 n2) : (p.1 = n1 ∨ p.1 ∈ S.children n1) ∧ (p.2 = n2 ∨ p.2 ∈ S.children n2) := by
  unfold childPairs at hp
  split at hp
  · obtain ⟨c, hc, rfl⟩ := List.mem_map.1 hp; exact ⟨.inl rfl, .inr hc⟩
  · split at hp
    · obtain ⟨c, hc, rfl⟩ := List.mem_map.1 hp; exact ⟨.inr hc, .inl rfl⟩
    · obtain ⟨c, hc, hp⟩ := List.mem_flatMap.1 hp
      obtain ⟨d, hd, rfl⟩ := List.mem_map.1 hp
      exact ⟨.inr hc, .inr hd⟩

theorem below_of {S : Setup ν K} {n c m : ν} (h : c = n ∨ c ∈ S.children n) (hm : Below S c m) : Below S n m := by
  rcases h with rfl | h
  · exact hm
  · exact .step h hm

/-- `q` is a pair the recursion started with `p` can visit. -/
inductive Visited (S : Setup ν K) : ν × ν → ν × ν → Prop
  | refl (p : ν × ν) : Visited S p p
  | step {p c q : ν × ν} : c ∈ childPairs S p.1 p.2 → Visited S c q → Visited S p q

theorem Visited.toBelow {S : Setup ν K} {p q : ν × ν} (h : Visited S p q) : Below S p.1 q.1 ∧ Below S p.2 q.2 := by
  induction h with
  | refl => exact ⟨.refl _, .refl _⟩
  | step hc _ ih => exact ⟨below_of (mem_childPairs hc).1 ih.1, below_of (mem_childPairs hc).2 ih.2⟩

theorem Effect.mono {S : Setup ν K} {P Q : ν × ν → Prop} {L : List (ν × ν)} {st r b A B C} (h : Effect S P L st r b A B C) (hPQ : ∀ p, P p → Q p) : Effect S Q L st r b A B C :=
  ⟨h.near, h.far, h.flag, h.zero, h.adm, h.level, fun p hp => hPQ p (h.sub p hp), h.cover⟩

theorem effect_near (S : Setup ν K) (n1 n2 : ν) (st : Pairs ν) :
    Effect S (Visited S (n1, n2)) [(n1, n2)] st ({ st with near := st.near ++ [(n1, n2)] }, false) false [(n1, n2)] [] [] :=
  ⟨rfl, by simp, fun _ => ⟨rfl, rfl, rfl⟩, by simp, by simp, by simp, by simp [Visited.refl], by simp⟩

theorem effect_far (S : Setup ν K) (n1 n2 : ν) (st : Pairs ν) (l : Nat) (hl : l ≤ S.maxLevels) (hv : verdict S n1 n2 = .admissible) :
    Effect S (Visited S (n1, n2)) [(n1, n2)] st ({ st with far := st.far ++ [(l, n1, n2)] }, true) false [] [(l, n1, n2)] [] :=
  ⟨by simp, rfl, fun h => by simp at h, by simp, by simpa using hv, by simpa using hl, by simp [Visited.refl], by simp⟩

theorem effect_zero (S : Setup ν K) (n1 n2 : ν) (st : Pairs ν) (hv : verdict S n1 n2 = .zero) :
    Effect S (Visited S (n1, n2)) [(n1, n2)] st (st, true) false [] [] [(n1, n2)] :=
  ⟨by simp, by simp, fun h => by simp at h, by simpa using hv, by simp, by simp, by simp [Visited.refl], by simp⟩

theorem effect_getAdmissible {S : Setup ν K} (h : Splits S) (rem : Nat) (n1 n2 : ν) (st : Pairs ν) :
    ∃ A B C, Effect S (Visited S (n1, n2)) [(n1, n2)] st (getAdmissible S rem n1 n2 st) false A B C := by
  induction rem generalizing n1 n2 st with
  | zero =>
    unfold getAdmissible
    cases hv : verdict S n1 n2 with
    | zero => exact ⟨_, _, _, effect_zero S n1 n2 st hv⟩
    | admissible => exact ⟨_, _, _, effect_far S n1 n2 st _ le_rfl hv⟩
    | inadmissible => exact ⟨_, _, _, effect_near S n1 n2 st⟩
  | succ rem ih =>
    unfold getAdmissible
    cases hv : verdict S n1 n2 with
    | zero => exact ⟨_, _, _, effect_zero S n1 n2 st hv⟩
    | admissible => exact ⟨_, _, _, effect_far S n1 n2 st _ (Nat.sub_le _ _) hv⟩
    | inadmissible =>
      dsimp only
      split
      · exact ⟨_, _, _, effect_near S n1 n2 st⟩
      · rename_i hleaf
        split
        · exact ⟨_, _, _, effect_near S n1 n2 st⟩
        · obtain ⟨A, B, C, e⟩ := effect_fold (P := Visited S (n1, n2)) (getAdmissible S rem) (childPairs S n1 n2)
            (fun p hp st => by
              obtain ⟨A, B, C, e⟩ := ih p.1 p.2 st
              exact ⟨A, B, C, e.mono fun q hq => .step hp hq⟩) st false
          have hcov : ∀ i j, cover S.dofs (childPairs S n1 n2) i j = cover S.dofs [(n1, n2)] i j := by
            intro i j
            rw [cover_childPairs h n1 n2 hleaf]
            simp [cover]
          unfold merge
          split
          · rename_i hm
            simp only [Bool.and_eq_true, Bool.not_eq_true'] at hm
            obtain ⟨-, hB, hC⟩ := e.flag hm.1
            refine ⟨[(n1, n2)], [], [], ⟨?_, ?_, fun _ => ⟨rfl, rfl, rfl⟩, by simp, by simp, by simp, by simp [Visited.refl], by simp⟩⟩
            · simp only [e.near, List.take_left']
            · simp only [e.far, hB]
          · exact ⟨A, B, C, ⟨e.near, e.far, e.flag, e.zero, e.adm, e.level, e.sub, fun i j => (e.cover i j).trans (hcov i j)⟩⟩

theorem nodup_below {S : Setup ν K} (h : Splits S) {n m : ν} (hm : Below S n m) (hn : (S.dofs n).Nodup) : (S.dofs m).Nodup := by
  induction hm with
  | refl => exact hn
  | step hc _ ih =>
    refine ih ?_
    have hne : S.children _ ≠ [] := List.ne_nil_of_mem hc
    have h1 := (h _ hne).nodup_iff.1 hn
    rw [List.nodup_flatMap] at h1
    exact h1.1 _ hc

theorem cover_eq_countP {dofs : ν → List Nat} {L : List (ν × ν)} (h : ∀ p ∈ L, (dofs p.1).Nodup ∧ (dofs p.2).Nodup) (i j : Nat) :
    cover dofs L i j = L.countP fun p => decide (i ∈ dofs p.1 ∧ j ∈ dofs p.2) := by
  induction L with
  | nil => rfl
  | cons p L ih =>
    have h1 := ih fun q hq => h q (List.mem_cons_of_mem _ hq)
    have h2 := h p (List.mem_cons_self ..)
    have h3 : cover dofs (p :: L) i j = (dofs p.1).count i * (dofs p.2).count j + cover dofs L i j := by simp [cover]
    rw [h3, h1, List.countP_cons, h2.1.count, h2.2.count]
    by_cases hi : i ∈ dofs p.1 <;> by_cases hj : j ∈ dofs p.2 <;> simp [hi, hj, Nat.add_comm]

/-- The pairs `getCovering` leaves out. -/
def skipped (S : Setup ν K) (p : ν × ν) : Prop := (∃ h, S.horizon = some h ∧ S.dist p.1 p.2 > h) ∨ S.dofs p.1 = [] ∨ S.dofs p.2 = []

theorem covering_fold {S : Setup ν K} {P : ν × ν → Prop} (rec : ν → ν → List (ν × ν) → List (ν × ν)) (L : List (ν × ν))
    (hrec : ∀ p ∈ L, ∀ near, ∃ A C, rec p.1 p.2 near = near ++ A ∧ (∀ q ∈ A ++ C, P q) ∧ (∀ q ∈ C, skipped S q) ∧ ∀ i j, cover S.dofs (A ++ C) i j = cover S.dofs [p] i j) (near : List (ν × ν)) :
    ∃ A C, L.foldl (fun acc p => rec p.1 p.2 acc) near = near ++ A ∧ (∀ q ∈ A ++ C, P q) ∧ (∀ q ∈ C, skipped S q) ∧ ∀ i j, cover S.dofs (A ++ C) i j = cover S.dofs L i j := by
  induction L generalizing near with
  | nil => exact ⟨[], [], by simp, by simp, by simp, by simp⟩
  | cons p L ih =>
    obtain ⟨A1, C1, e1, p1, s1, c1⟩ := hrec p (List.mem_cons_self ..) near
    obtain ⟨A2, C2, e2, p2, s2, c2⟩ := ih (fun q hq => hrec q (List.mem_cons_of_mem _ hq)) (near ++ A1)
    refine ⟨A1 ++ A2, C1 ++ C2, ?_, ?_, ?_, ?_⟩
    · rw [List.foldl_cons, e1, e2, List.append_assoc]
    · intro q hq
      have h1 := p1 q
      have h2 := p2 q
      simp only [List.mem_append] at hq h1 h2
      tauto
    · intro q hq
      rcases List.mem_append.1 hq with hq | hq
      · exact s1 q hq
      · exact s2 q hq
    · intro i j
      have h3 : cover S.dofs (p :: L) i j = cover S.dofs [p] i j + cover S.dofs L i j := by simp [cover]
      rw [h3, ← c1, ← c2]
      simp only [cover_append]
      ring

theorem covering {S : Setup ν K} (h : Splits S) (rem : Nat) (n1 n2 : ν) (near : List (ν × ν)) :
    ∃ A C, getCovering S rem n1 n2 near = near ++ A ∧ (∀ q ∈ A ++ C, Below S n1 q.1 ∧ Below S n2 q.2) ∧ (∀ q ∈ C, skipped S q) ∧
      ∀ i j, cover S.dofs (A ++ C) i j = cover S.dofs [(n1, n2)] i j := by
  induction rem generalizing n1 n2 near with
  | zero =>
    unfold getCovering
    split
    · rename_i hs
      refine ⟨[], [(n1, n2)], by simp, by simp [Below.refl], ?_, by simp⟩
      simp only [Setup.numDofs, Bool.or_eq_true, beq_iff_eq, List.length_eq_zero_iff] at hs
      rcases hs with (hs | hs) | hs
      · cases hh : S.horizon with
        | none => simp [beyond, hh] at hs
        | some v => simp only [beyond, hh, decide_eq_true_eq] at hs; simpa [skipped, hh] using .inl hs
      · simp [skipped, hs]
      · simp [skipped, hs]
    · refine ⟨[(n1, n2)], [], ?_, by simp [Below.refl], by simp, by simp⟩
      split
      · rfl
      · split <;> rfl
  | succ rem ih =>
    unfold getCovering
    split
    · rename_i hs
      refine ⟨[], [(n1, n2)], by simp, by simp [Below.refl], ?_, by simp⟩
      simp only [Setup.numDofs, Bool.or_eq_true, beq_iff_eq, List.length_eq_zero_iff] at hs
      rcases hs with (hs | hs) | hs
      · cases hh : S.horizon with
        | none => simp [beyond, hh] at hs
        | some v => simp only [beyond, hh, decide_eq_true_eq] at hs; simpa [skipped, hh] using .inl hs
      · simp [skipped, hs]
      · simp [skipped, hs]
    · split
      · exact ⟨[(n1, n2)], [], rfl, by simp [Below.refl], by simp, by simp⟩
      · split
        · exact ⟨[(n1, n2)], [], rfl, by simp [Below.refl], by simp, by simp⟩
        · rename_i hleaf
          obtain ⟨A, C, e, p, s, c⟩ := covering_fold (S := S) (P := fun q => Below S n1 q.1 ∧ Below S n2 q.2) (getCovering S rem) (childPairs S n1 n2)
            (fun p hp near => by
              obtain ⟨A, C, e, hq, hs, hc⟩ := ih p.1 p.2 near
              have hm := mem_childPairs hp
              exact ⟨A, C, e, fun q hq' => ⟨below_of hm.1 (hq q hq').1, below_of hm.2 (hq q hq').2⟩, hs, hc⟩) near
          refine ⟨A, C, e, p, s, fun i j => (c i j).trans ?_⟩
          rw [cover_childPairs h n1 n2 hleaf]
          simp [cover]

/-! ## Boxes -/

/-- Square of the distance of two points. -/
def ptDist2 : List K → List K → K
  | x :: r, y :: s => (x - y) ^ 2 + ptDist2 r s
  | _, _ => 0

/-- A point of a box. -/
def InBox (b : Box K) (x : List K) : Prop := List.Forall₂ (fun iv v => iv.1 ≤ v ∧ v ≤ iv.2) b x

variable [IsStrictOrderedRing K]

theorem dist2_nonneg : ∀ (b1 b2 : Box K), 0 ≤ dist2 b1 b2
  | [], _ => by simp [dist2]
  | _ :: _, [] => by simp [dist2]
  | (l1, h1) :: r, (l2, h2) :: s => by
    have := dist2_nonneg r s
    unfold dist2
    dsimp only
    positivity

theorem maxDist2_nonneg : ∀ (b1 b2 : Box K), 0 ≤ maxDist2 b1 b2
  | [], _ => by simp [maxDist2]
  | _ :: _, [] => by simp [maxDist2]
  | (l1, h1) :: r, (l2, h2) :: s => by
    have := maxDist2_nonneg r s
    unfold maxDist2
    dsimp only
    positivity

theorem sq_max_le {a d : K} (h : a ≤ |d|) : max a 0 ^ 2 ≤ d ^ 2 := by
  rw [← sq_abs d]
  exact pow_le_pow_left₀ (le_max_right _ _) (max_le h (abs_nonneg d)) 2

/-- `distBoxes` bounds the distance of points of the boxes from below. -/
theorem dist2_le {b1 b2 : Box K} {x y : List K} (hx : InBox b1 x) (hy : InBox b2 y) : dist2 b1 b2 ≤ ptDist2 x y := by
  induction hx generalizing b2 y with
  | nil => simp [dist2, ptDist2]
  | @cons iv v b1 x h1 hx ih =>
    cases hy with
    | nil => simp [dist2, ptDist2]
    | @cons iw w b2 y h2 hy =>
      have := ih hy
      obtain ⟨l1, u1⟩ := iv
      obtain ⟨l2, u2⟩ := iw
      unfold dist2 ptDist2
      dsimp only at h1 h2 ⊢
      split
      · have h3 : l1 - u2 ≤ |v - w| := le_trans (by linarith) (le_abs_self _)
        have := sq_max_le h3
        simp only at this ⊢
        linarith
      · have h3 : l2 - u1 ≤ |v - w| := le_trans (show l2 - u1 ≤ -(v - w) by linarith) (neg_le_abs _)
        have := sq_max_le h3
        simp only at this ⊢
        linarith

end PyNucleus.ClusterPairs
