import Verif.Model.LevelMatrices
import Mathlib.Algebra.Module.Basic
import Mathlib.Data.List.GetD
import Mathlib.Tactic.Abel
import Mathlib.Tactic.Ring

/-!
# Lemmas on the matrices on levels
-/

namespace PyNucleus.LevelMatrices

variable {K V : Type} [Semiring K] [AddCommMonoid V] [Module K V]

/-- The product of the triple products over the first `k` levels below. -/
def through (Ps : Nat → V → V) : Nat → V → V
  | 0, x => x
  | k + 1, x => Ps k (through Ps k x)

theorem through_succ (Ps : Nat → V → V) (k : Nat) (x : V) :
    through Ps (k + 1) x = through (fun i => Ps (i + 1)) k (Ps 0 x) := by
  induction k with
  | zero => rfl
  | succ k ih => rw [through, ih]; rfl

/-- A loop over the entries of a list. -/
theorem loop_getD (g : Nat → K → K) (l : List K) : ∀ n, n ≤ l.length →
    ((List.range n).foldl (fun d i => d.set i (g i (d.getD i 0))) l).length = l.length ∧
    ∀ i, ((List.range n).foldl (fun d i => d.set i (g i (d.getD i 0))) l).getD i 0 =
      if i < n then g i (l.getD i 0) else l.getD i 0 := by
  intro n
  induction n with
  | zero => intro _; simp
  | succ n ih =>
    intro hn
    obtain ⟨h1, h2⟩ := ih (by omega)
    rw [List.range_succ, List.foldl_append]
    refine ⟨by simpa using h1, fun i => ?_⟩
    simp only [List.foldl_cons, List.foldl_nil]
    rw [List.getD_eq_getElem?_getD, List.getElem?_set]
    by_cases hi : n = i
    · subst hi
      rw [if_pos rfl, if_pos (by rw [h1]; omega), if_pos (by omega), Option.getD_some, h2, if_neg (by omega)]
    · rw [if_neg hi, ← List.getD_eq_getElem?_getD, h2]
      by_cases hlt : i < n
      · rw [if_pos hlt, if_pos (by omega)]
      · rw [if_neg hlt, if_neg (by omega)]

theorem addConstSym_spec (c : K) (A M : Sym K) : ∀ n, n ≤ A.data.length →
    let r := (List.range n).foldl (fun (s : Sym K) j =>
      (⟨s.data.set j (s.data.getD j 0 + c * M.data.getD j 0),
        (List.range s.diagonal.length).foldl (fun d i => d.set i (d.getD i 0 + c * M.diagonal.getD i 0))
          s.diagonal⟩ : Sym K)) A
    r.data.length = A.data.length ∧ r.diagonal.length = A.diagonal.length ∧
    (∀ j, r.data.getD j 0 = A.data.getD j 0 + if j < n then c * M.data.getD j 0 else 0) ∧
    ∀ i, i < A.diagonal.length → r.diagonal.getD i 0 = A.diagonal.getD i 0 + n • (c * M.diagonal.getD i 0) := by
  intro n
  induction n with
  | zero => intro _; simp
  | succ n ih =>
    intro hn
    obtain ⟨h1, h2, h3, h4⟩ := ih (by omega)
    dsimp only
    rw [List.range_succ, List.foldl_append]
    simp only [List.foldl_cons, List.foldl_nil]
    obtain ⟨k1, k2⟩ := loop_getD (fun i x => x + c * M.diagonal.getD i 0) _ _
      (le_refl ((List.range n).foldl (fun (s : Sym K) j =>
      (⟨s.data.set j (s.data.getD j 0 + c * M.data.getD j 0),
        (List.range s.diagonal.length).foldl (fun d i => d.set i (d.getD i 0 + c * M.diagonal.getD i 0))
          s.diagonal⟩ : Sym K)) A).diagonal.length)
    refine ⟨by simpa using h1, k1.trans h2, fun j => ?_, fun i hi => ?_⟩
    · rw [List.getD_eq_getElem?_getD, List.getElem?_set]
      by_cases hj : n = j
      · subst hj
        rw [if_pos rfl, if_pos (by rw [h1]; omega), if_pos (by omega), Option.getD_some, h3, if_neg (by omega),
          add_zero]
      · rw [if_neg hj, ← List.getD_eq_getElem?_getD, h3]
        by_cases hlt : j < n
        · rw [if_pos hlt, if_pos (by omega)]
        · rw [if_neg hlt, if_neg (by omega)]
    · rw [k2, if_pos (by rw [h2]; exact hi), h4 i hi, add_assoc, succ_nsmul]

end PyNucleus.LevelMatrices

namespace PyNucleus.LevelMatrices

variable {K V : Type} [Semiring K] [AddCommMonoid V] [Module K V]

/-- The prolongation to level `k` (counted from the finest one), if there is a coarser level. -/
def prolongation (n : Nat) (Ps : Nat → V →ₗ[K] V) : Option (V → V) := if 0 < n then some (Ps 0) else none

/-- `n` coarser levels with sparsity patterns. -/
def coarse (mass drift : Bool) : Nat → (Nat → V →ₗ[K] V) → (Nat → Option (V → V)) → List (Level V)
  | 0, _, _ => []
  | n + 1, Ps, dms => sparsity mass drift (prolongation n fun i => Ps (i + 1)) (dms 0) ::
      coarse mass drift n (fun i => Ps (i + 1)) (fun i => dms (i + 1))

theorem through_add (Ps : Nat → V →ₗ[K] V) (k : Nat) (x y : V) :
    through (fun i => Ps i) k (x + y) = through (fun i => Ps i) k x + through (fun i => Ps i) k y := by
  induction k with
  | zero => rfl
  | succ k ih => simp only [through, ih, map_add]

theorem through_smul (Ps : Nat → V →ₗ[K] V) (k : Nat) (c : K) (x : V) :
    through (fun i => Ps i) k (c • x) = c • through (fun i => Ps i) k x := by
  induction k with
  | zero => rfl
  | succ k ih => simp only [through, ih, map_smul]

theorem addReaction_none (cur prev : Level V) : addReaction (.none : Reaction K) cur prev = some prev := by
  unfold addReaction
  split <;> rfl

theorem addReaction_const (c : K) (cur prev : Level V) (m a a' m' : V) (p : V → V) (hM : cur.M = some m) (hA : cur.matA = some a)
    (hP : cur.P = some p) (hA' : prev.matA = some a') (hM' : prev.M = some m') :
    addReaction (.const c) cur prev = some (addToA prev (c • m')) := by
  unfold addReaction
  rw [hM, hA, hP, hA', hM']

theorem restrictAll_sparsity (cur : Level V) (mass drift : Bool) (p : V → V) (P dm : Option (V → V)) (s : V)
    (hS : cur.S = some s) (hP : cur.P = some p) :
    restrictAll cur (sparsity mass drift P dm) =
      ⟨some (p s), restrictInto (some p) cur.D (if drift then some 0 else none) false,
        restrictInto (some p) cur.M (if mass then some 0 else none) false, .alias, P, dm, false⟩ := by
  simp [restrictAll, sparsity, restrictInto, aliasA, hS, hP]

theorem coarsen_none (cur : Level V) (mass drift : Bool) (p : V → V) (P dm : Option (V → V)) (s : V) (D M : Option V)
    (hS : cur.S = some s) (hD : cur.D = D) (hM : cur.M = M) (hP : cur.P = some p) (hd : drift = D.isSome)
    (hm : mass = M.isSome) :
    coarsen (.none : Reaction K) cur (sparsity mass drift P dm) =
      some ⟨some (p s), D.map p, M.map p, .alias, P, dm, true⟩ := by
  subst hd hm hD hM
  unfold coarsen
  rw [addReaction_none, restrictAll_sparsity cur _ _ p P dm s hS hP]
  cases hD : cur.D <;> cases hM : cur.M <;> simp [restrictInto]

theorem coarsen_const (c : K) (cur : Level V) (drift : Bool) (p : V → V) (P dm : Option (V → V)) (s m a : V)
    (hS : cur.S = some s) (hM : cur.M = some m) (hP : cur.P = some p) (hA : cur.matA = some a) :
    ∃ D, coarsen (.const c) cur (sparsity true drift P dm) =
      some ⟨some (p s + c • p m), D, some (p m), .alias, P, dm, true⟩ := by
  refine ⟨restrictInto (some p) cur.D (if drift then some 0 else none) false, ?_⟩
  unfold coarsen
  rw [restrictAll_sparsity cur _ _ p P dm s hS hP, addReaction_const c cur _ m a (p s) (p m) p hM hA hP rfl
    (by simp [restrictInto, hM])]
  simp [addToA, restrictInto, hM]

theorem chain_none : ∀ (n : Nat) (Ps : Nat → V →ₗ[K] V) (dms : Nat → Option (V → V)) (cur : Level V) (mass drift : Bool)
    (s : V) (D M : Option V), cur.S = some s → cur.D = D → cur.M = M → cur.matA = some s → cur.full = true →
    cur.P = prolongation n Ps → drift = D.isSome → mass = M.isSome →
    ∃ ls, buildCoarser (.none : Reaction K) cur (coarse mass drift n Ps dms) = some ls ∧ ls.length = n + 1 ∧
      ∀ k, k ≤ n → ∃ l, ls[k]? = some l ∧ l.S = some (through (fun i => Ps i) k s) ∧
        l.matA = some (through (fun i => Ps i) k s) ∧ l.D = D.map (through (fun i => Ps i) k) ∧
        l.M = M.map (through (fun i => Ps i) k) ∧ l.full = true := by
  intro n
  induction n with
  | zero =>
    intro Ps dms cur mass drift s D M hS hD hM hA hF _ _ _
    refine ⟨[cur], rfl, rfl, fun k hk => ⟨cur, by simp [Nat.le_zero.1 hk], ?_⟩⟩
    obtain rfl := Nat.le_zero.1 hk
    refine ⟨hS, hA, ?_, ?_, hF⟩
    · rw [hD]; cases D <;> rfl
    · rw [hM]; cases M <;> rfl
  | succ n ih =>
    intro Ps dms cur mass drift s D M hS hD hM hA hF hP hd hm
    have hP : cur.P = some (Ps 0) := by rw [hP]; simp [prolongation]
    have hc := coarsen_none (K := K) cur mass drift (Ps 0) (prolongation n fun i => Ps (i + 1)) (dms 0) s D M hS hD hM hP hd hm
    obtain ⟨ls, h1, h2, h3⟩ := ih (fun i => Ps (i + 1)) (fun i => dms (i + 1))
      ⟨some (Ps 0 s), D.map (Ps 0), M.map (Ps 0), .alias, prolongation n fun i => Ps (i + 1), dms 0, true⟩
      mass drift (Ps 0 s) (D.map (Ps 0)) (M.map (Ps 0)) rfl rfl rfl rfl rfl rfl (by simp [hd]) (by simp [hm])
    refine ⟨cur :: ls, by simp [coarse, buildCoarser, hc, h1], by simp [h2], fun k hk => ?_⟩
    cases k with
    | zero =>
      refine ⟨cur, rfl, hS, hA, ?_, ?_, hF⟩
      · rw [hD]; cases D <;> rfl
      · rw [hM]; cases M <;> rfl
    | succ k =>
      obtain ⟨l, g1, g2, g3, g4, g5, g6⟩ := h3 k (by omega)
      have e := fun x => (through_succ (fun i => ⇑(Ps i)) k x).symm
      refine ⟨l, by simpa using g1, by rw [g2, e], by rw [g3, e], ?_, ?_, g6⟩
      · rw [g4, Option.map_map]; congr 1; funext x; exact e x
      · rw [g5, Option.map_map]; congr 1; funext x; exact e x

theorem chain_const (c : K) : ∀ (n : Nat) (Ps : Nat → V →ₗ[K] V) (dms : Nat → Option (V → V)) (cur : Level V)
    (drift : Bool) (s m a : V), cur.S = some s → cur.M = some m → cur.matA = some a → cur.P = prolongation n Ps →
    ∃ ls, buildCoarser (.const c) cur (coarse true drift n Ps dms) = some ls ∧ ls.length = n + 1 ∧ ls[0]? = some cur ∧
      ∀ k, 1 ≤ k → k ≤ n → ∃ l, ls[k]? = some l ∧
        l.S = some (through (fun i => Ps i) k s + k • (c • through (fun i => Ps i) k m)) ∧
        l.matA = l.S ∧ l.M = some (through (fun i => Ps i) k m) ∧ l.full = true := by
  intro n
  induction n with
  | zero =>
    intro Ps dms cur drift s m a _ _ _ _
    exact ⟨[cur], rfl, rfl, rfl, fun k h1 h2 => by omega⟩
  | succ n ih =>
    intro Ps dms cur drift s m a hS hM hA hP
    have hP : cur.P = some (Ps 0) := by rw [hP]; simp [prolongation]
    obtain ⟨D, hc⟩ := coarsen_const c cur drift (Ps 0) (prolongation n fun i => Ps (i + 1)) (dms 0) s m a hS hM hP hA
    obtain ⟨ls, h1, h2, h3, h4⟩ := ih (fun i => Ps (i + 1)) (fun i => dms (i + 1))
      ⟨some (Ps 0 s + c • Ps 0 m), D, some (Ps 0 m), .alias, prolongation n fun i => Ps (i + 1), dms 0, true⟩
      drift (Ps 0 s + c • Ps 0 m) (Ps 0 m) (Ps 0 s + c • Ps 0 m) rfl rfl rfl rfl
    refine ⟨cur :: ls, by simp [coarse, buildCoarser, hc, h1], by simp [h2], rfl, fun k hk1 hk => ?_⟩
    obtain ⟨k, rfl⟩ := Nat.exists_eq_add_of_le' hk1
    rcases Nat.eq_zero_or_pos k with rfl | hpos
    · exact ⟨_, by simpa using h3, by simp [through], rfl, rfl, rfl⟩
    · obtain ⟨l, g1, g2, g3, g4, g5⟩ := h4 k hpos (by omega)
      have e := fun x => through_succ (fun i => ⇑(Ps i)) k x
      refine ⟨l, by simpa using g1, ?_, g3, by rw [g4, e], g5⟩
      rw [g2, through_add (fun i => Ps (i + 1)), through_smul (fun i => Ps (i + 1)), e, e, succ_nsmul, Option.some.injEq]
      abel

end PyNucleus.LevelMatrices
