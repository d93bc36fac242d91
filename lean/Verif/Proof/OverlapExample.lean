import Verif.Spec.Overlap
import Mathlib.Tactic.IntervalCases

namespace PyNucleus.Overlap

/-! Three ranks share one dof; every rank has another dof of its own. -/

/-- The overlaps of the example. -/
def ov3 (r : Nat) : Manager :=
  match r with
  | 0 => ⟨2, [(1, [0]), (2, [0])]⟩
  | 1 => ⟨2, [(0, [0]), (2, [0])]⟩
  | _ => ⟨2, [(0, [0]), (1, [0])]⟩

/-- Global numbers. -/
def gid3 (r i : Nat) : Nat := if i = 0 then 0 else 1 + r

theorem ov3_n (r : Nat) : (ov3 r).n = 2 := by
  match r with
  | 0 => rfl
  | 1 => rfl
  | r + 2 => rfl

theorem ov3_shared (r s : Nat) : (ov3 r).shared s = [0] ∨ (ov3 r).shared s = [] := by
  by_cases h0 : s = 0
  · subst h0
    match r with
    | 0 => right; rfl
    | 1 => left; rfl
    | r + 2 => left; rfl
  by_cases h1 : s = 1
  · subst h1
    match r with
    | 0 => left; rfl
    | 1 => right; rfl
    | r + 2 => left; rfl
  by_cases h2 : s = 2
  · subst h2
    match r with
    | 0 => left; rfl
    | 1 => left; rfl
    | r + 2 => right; rfl
  right
  match r with
  | 0 => simp [Manager.shared, ov3, Ne.symm h1, Ne.symm h2]
  | 1 => simp [Manager.shared, ov3, Ne.symm h0, Ne.symm h2]
  | r + 2 => simp [Manager.shared, ov3, Ne.symm h0, Ne.symm h1]

theorem consistent3 : Consistent 3 ov3 gid3 where
  keys_nodup := by decide
  keys_lt := by decide
  symm := by decide
  shared_lt := fun r _ s i hi => by
    rw [ov3_n]
    rcases ov3_shared r s with h | h <;> rw [h] at hi <;> simp at hi
    omega
  inj := fun r hr i j hi hj h => by
    rw [ov3_n] at hi hj
    unfold gid3 at h
    split at h <;> split at h <;> omega
  nodup := fun r _ s => by rcases ov3_shared r s with h | h <;> rw [h] <;> simp
  same := fun r s hr hs => by interval_cases r <;> interval_cases s <;> decide
  complete := fun r s i j hr hs hne hi hj h => by
    rw [ov3_n] at hi hj
    have hij : i = 0 := by
      unfold gid3 at h
      split at h <;> split at h <;> omega
    subst hij
    interval_cases r <;> interval_cases s <;> first | omega | decide

end PyNucleus.Overlap
