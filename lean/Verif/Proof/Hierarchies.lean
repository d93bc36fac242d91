import Verif.Model.Hierarchies

/-!
# Lemmas on hierarchies
-/

namespace PyNucleus.Hierarchies

/-- Level `i` when `k` is the newest level. -/
def expected (noRef : Nat) (policies : List Bool) (types : List Nat) (keepAll keep0 : Bool) (k i : Nat) : Level :=
  let keep := if i = 0 then keep0 else policies.getD i false
  let b := types.getD i 0
  ⟨i == k || keep, keep, i == noRef && i != 0, b, hasFlag b DOFMAPS && (i == k || i == 0 || keepAll),
    hasFlag b RESTRICTION_PROLONGATION && i != 0⟩

theorem levelNo_eq (s : Nat) : ∀ ls : List Level, ls ≠ [] → levelNo s ls + 1 = s + ls.length
  | [], h => absurd rfl h
  | [_], _ => rfl
  | _ :: b :: rest, _ => by
    have := levelNo_eq s (b :: rest) (by simp)
    simp only [levelNo, List.length_cons] at this ⊢
    omega

theorem refineTimes_spec (s noRef : Nat) (policies : List Bool) (types : List Nat) (keepAll keep0 : Bool)
    (hp : noRef < policies.length) (ht : noRef < types.length)
    (hf : ∀ i, i < noRef → hasFlag (types.getD (i + 1) 0) RESTRICTION_PROLONGATION = true →
      hasFlag (types.getD i 0) DOFMAPS = true ∧ hasFlag (types.getD (i + 1) 0) DOFMAPS = true) : ∀ k, k ≤ noRef →
    refineTimes s noRef policies types keepAll keep0 k =
      some ((List.range (k + 1)).map (expected noRef policies types keepAll keep0 k)).reverse := by
  intro k
  induction k with
  | zero =>
    intro _
    have : types[0]? = some (types.getD 0 0) := by
      rw [List.getD_eq_getElem _ _ (by omega)]
      exact List.getElem?_eq_getElem (by omega)
    unfold refineTimes start
    rw [this]
    simp [algebraic, expected]
  | succ k ih =>
    intro hk
    rw [refineTimes, ih (by omega), Option.bind_some]
    have hsplit : ((List.range (k + 1)).map (expected noRef policies types keepAll keep0 k)).reverse =
        expected noRef policies types keepAll keep0 k k ::
          ((List.range k).map (expected noRef policies types keepAll keep0 k)).reverse := by
      rw [List.range_succ, List.map_append, List.reverse_append]; rfl
    have hold : (List.range k).map (expected noRef policies types keepAll keep0 k) =
        (List.range k).map (expected noRef policies types keepAll keep0 (k + 1)) := by
      apply List.map_congr_left
      intro i hi
      have hi := List.mem_range.1 hi
      have h1 : (i == k) = false := by simp; omega
      have h2 : (i == k + 1) = false := by simp; omega
      simp only [expected, h1, h2]
    have hno : levelNo s (expected noRef policies types keepAll keep0 k k ::
          ((List.range k).map (expected noRef policies types keepAll keep0 k)).reverse) + 1 - s = k + 1 := by
      rw [levelNo_eq s _ (by simp)]; simp
    have hpol : policies[k + 1]? = some (policies.getD (k + 1) false) := by
      rw [List.getD_eq_getElem _ _ (by omega)]
      exact List.getElem?_eq_getElem (by omega)
    have htyp : types[k + 1]? = some (types.getD (k + 1) 0) := by
      rw [List.getD_eq_getElem _ _ (by omega)]
      exact List.getElem?_eq_getElem (by omega)
    rw [hsplit]
    unfold refine
    simp only [hno, hpol, htyp]
    have hlast : (expected noRef policies types keepAll keep0 k k).last = false := by
      have : (k == noRef) = false := by simp; omega
      simp [expected, this]
    rw [hlast]
    have hnew : algebraic true (policies.getD (k + 1) false) (k + 1 == noRef) (types.getD (k + 1) 0)
        (some (expected noRef policies types keepAll keep0 k k)) =
        some (expected noRef policies types keepAll keep0 (k + 1) (k + 1)) := by
      unfold algebraic
      dsimp only
      have hdm : (expected noRef policies types keepAll keep0 k k).dofMap = hasFlag (types.getD k 0) DOFMAPS := by
        simp [expected]
      rw [hdm]
      by_cases hr : hasFlag (types.getD (k + 1) 0) RESTRICTION_PROLONGATION = true
      · obtain ⟨h1, h2⟩ := hf k (by omega) hr
        simp only [hr, h1, h2, if_true, Bool.and_self, expected]
        simp
      · simp only [Bool.not_eq_true] at hr
        simp only [hr, expected]
        simp
    rw [hnew]
    have hclean : clean keepAll ((List.range k).map (expected noRef policies types keepAll keep0 k)).reverse.isEmpty
        (expected noRef policies types keepAll keep0 k k) = expected noRef policies types keepAll keep0 (k + 1) k := by
      have he : ((List.range k).map (expected noRef policies types keepAll keep0 k)).reverse.isEmpty = (k == 0) := by
        cases k <;> simp
      rw [he]
      have h2 : (k == k + 1) = false := by simp
      simp only [clean, expected, h2, beq_self_eq_true]
      cases keepAll <;> cases hk0 : (k == 0) <;> simp
    simp only [Bool.false_eq_true, if_false, Option.map_some, hclean]
    rw [List.range_succ (n := k + 1), List.range_succ (n := k), List.map_append, List.map_append, List.reverse_append,
      List.reverse_append, hold]
    rfl

theorem getD_rep {α : Type} (n : Nat) (a b d : α) (i : Nat) (hi : i ≤ n) :
    (List.replicate n a ++ [b]).getD i d = if i = n then b else a := by
  rcases Nat.lt_or_ge i n with h | h
  · rw [List.getD_append _ _ _ _ (by simpa using h), List.getD_replicate _ h, if_neg (by omega)]
  · obtain rfl : i = n := by omega
    rw [List.getD_append_right _ _ _ _ (by simp), if_pos rfl]
    simp

theorem policy_getD (k : Keep) (noRef i : Nat) (hi : i ≤ noRef) : noRef < (policy k noRef).length ∧
    (policy k noRef).getD i false = (match k with | .all => true | .last => i == noRef | .none => false) := by
  cases k <;> simp only [policy, List.length_append, List.length_replicate, List.length_singleton, Nat.lt_succ_self, true_and]
    <;> rw [getD_rep _ _ _ _ _ hi]
  · split <;> rfl
  · by_cases h : i = noRef <;> simp [h]
  · split <;> rfl

/-- The type of build of level `i`. -/
def typeOf (a : Assemble) (moved : Bool) (noRef i : Nat) : Nat :=
  match a with
  | .all => if moved || i == noRef then FULL_BUILD else SPARSITY_ONLY
  | .ALL => FULL_BUILD
  | .last => if i = noRef then FULL_BUILD else RESTRICTION_PROLONGATION_ONLY
  | .firstLast => if i = 0 ∨ i = noRef then FULL_BUILD else RESTRICTION_PROLONGATION_ONLY
  | .dofmapsOnly => DOFMAPS
  | .none => NO_BUILD
  | .restrictionProlongation => RESTRICTION_PROLONGATION_ONLY
  | .dofmapOnlyLast => if i = noRef then DOFMAPS else NO_BUILD

theorem buildTypes_getD (a : Assemble) (moved : Bool) (noRef i : Nat) (hi : i ≤ noRef) :
    noRef < (buildTypes a moved noRef).length ∧ (buildTypes a moved noRef).getD i 0 = typeOf a moved noRef i := by
  cases a <;> simp only [buildTypes, typeOf]
  · cases moved <;> simp only [Bool.false_eq_true, if_true, if_false, List.length_append, List.length_replicate,
      List.length_singleton, Nat.lt_succ_self, true_and, Bool.true_or, Bool.false_or] <;> rw [getD_rep _ _ _ _ _ hi]
    · by_cases h : i = noRef <;> simp [h]
    · split <;> rfl
  · refine ⟨by simp, ?_⟩
    rw [getD_rep _ _ _ _ _ hi]
    split <;> rfl
  · exact ⟨by simp, getD_rep _ _ _ _ _ hi⟩
  · refine ⟨by simp; omega, ?_⟩
    cases i with
    | zero => simp
    | succ i =>
      simp only [List.cons_append, List.nil_append, List.getD_cons_succ]
      rw [getD_rep _ _ _ _ _ (by omega)]
      have : (i = noRef - 1) = (i + 1 = 0 ∨ i + 1 = noRef) := by
        apply propext; omega
      simp only [this]
  · exact ⟨by simp, List.getD_replicate _ (by omega)⟩
  · exact ⟨by simp, List.getD_replicate _ (by omega)⟩
  · exact ⟨by simp, List.getD_replicate _ (by omega)⟩
  · exact ⟨by simp, getD_rep _ _ _ _ _ hi⟩

theorem typeOf_flags (a : Assemble) (moved : Bool) (noRef i : Nat)
    (h : hasFlag (typeOf a moved noRef (i + 1)) RESTRICTION_PROLONGATION = true) :
    hasFlag (typeOf a moved noRef i) DOFMAPS = true ∧ hasFlag (typeOf a moved noRef (i + 1)) DOFMAPS = true := by
  cases a <;> simp only [typeOf] at h ⊢
  · constructor <;> split <;> rfl
  · exact ⟨rfl, rfl⟩
  · constructor <;> split <;> rfl
  · constructor <;> split <;> rfl
  · exact ⟨rfl, rfl⟩
  · exact absurd h (by decide)
  · exact ⟨rfl, rfl⟩
  · split at h <;> exact absurd h (by decide)

end PyNucleus.Hierarchies
