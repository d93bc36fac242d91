import Verif.Proof.Parameters

/-!
# C102: nested dictionaries of parameters and results
-/

namespace PyNucleus.Props.C102

open PyNucleus.Parameters

variable {V K : Type}

/-- Defaults fill exactly what is missing: along each path the value is the given one, and the default
if none is given. No default is a value where a dictionary is given. -/
theorem defaults_fill (params defaults r : Dict V) (hd : defaults.WF)
    (h : updateFromDefaults params defaults = some r)
    (hc : ∀ q d v, node q (.dict params) = some (.dict d) → node q (.dict defaults) ≠ some (.leaf v))
    (p : List Nat) :
    value p (.dict r) = (value p (.dict params)).or (value p (.dict defaults)) :=
  update_value p params defaults r hd h hc

/-- A given value is never changed. -/
theorem defaults_keep (params defaults r : Dict V) (hd : defaults.WF)
    (h : updateFromDefaults params defaults = some r) (p : List Nat) (v : V)
    (hv : value p (.dict params) = some v) : value p (.dict r) = some v :=
  update_kept p params defaults r v hd h hv

/-- The update fails exactly if a value is given where the defaults have a dictionary with a key. -/
theorem defaults_raises (params defaults : Dict V) (hd : defaults.WF) :
    updateFromDefaults params defaults = none ↔
      ∃ p v k t e, node p (.dict params) = some (.leaf v) ∧
        node p (.dict defaults) = some (.dict (.cons k t e)) :=
  updateDict_none defaults params hd

/-- The difference has, along each path, what is different or missing there. -/
theorem difference (close : V → V → Bool) (d1 d2 : Dict V) (r : Dict (Mismatch V)) (h1 : d1.WF)
    (h2 : d2.WF) (h : diffDict close d1 d2 = some r) (p : List Nat) :
    value p (.dict r) = expected close (value p (.dict d1)) (value p (.dict d2)) :=
  diff_value close p d1 d2 r h1 h2 h

/-- The comparison fails exactly if a value meets a dictionary. -/
theorem difference_raises (close : V → V → Bool) (d1 d2 : Dict V) (h1 : d1.WF) :
    diffDict close d1 d2 = none ↔ Conflict (.dict d1) (.dict d2) := by
  unfold diffDict
  rw [Option.map_eq_none_iff, leftLoop_none close d1 d2 .nil h1]

/-- The difference is empty exactly if along each path there is no value in both, or values in both that
are close. -/
theorem difference_empty (close : V → V → Bool) (d1 d2 : Dict V) (r : Dict (Mismatch V)) (h1 : d1.WF)
    (h2 : d2.WF) (h : diffDict close d1 d2 = some r) :
    r = .nil ↔ ∀ p, (value p (.dict d1) = none ∧ value p (.dict d2) = none) ∨
      ∃ v w, value p (.dict d1) = some v ∧ value p (.dict d2) = some w ∧ close v w = true := by
  have hval := fun p => diff_value close p d1 d2 r h1 h2 h
  have hexp : ∀ a b : Option V, expected close a b = none ↔
      ((a = none ∧ b = none) ∨ ∃ v w, a = some v ∧ b = some w ∧ close v w = true) := by
    intro a b
    cases a <;> cases b <;> simp [expected]
  constructor
  · rintro rfl p
    rw [← hexp, ← hval, value_empty]
  · intro hp
    have hfull : FullDict r := by
      unfold diffDict at h
      obtain ⟨acc, hacc, rfl⟩ := Option.map_eq_some_iff.mp h
      exact full_rightLoop _ _ _ (full_leftLoop close d1 d2 .nil acc (by rw [FullDict]; trivial) hacc)
    cases r with
    | nil => rfl
    | cons k t d =>
      obtain ⟨p, v, hv⟩ := full_dict_value _ rfl hfull
      have := hval p
      rw [(hexp _ _).mpr (hp p), hv] at this
      cases this

/-- What was written to a file is read again, up to lists of numbers, which come back as arrays. Lists
and the first list of a list of lists are not empty, dictionaries inside have no simple value with the
name `type`, and not both `vertices` and `cells`; no number is taken for a pickled object. -/
theorem files_partial (unpickle : K → Option (Val K)) (hu : ∀ x, unpickle x = none) (d : Dict (Val K))
    (hd : d.Storable) : ∃ f, save d = some f ∧ load unpickle f = some (normDict d) :=
  loadDict unpickle hu d hd

/-- A dictionary with the key `type` inside a dictionary cannot be read again; an empty list, and a list
that begins with an empty list, cannot be written. -/
theorem files_fails :
    (∃ (d : Dict (Val Nat)) (f : File Nat), d.WF ∧ save d = some f ∧ load (fun _ => none) f = none) ∧
    (∃ (d : Dict (Val Nat)), d.WF ∧ save d = none ∧ d.get 7 = some (.leaf (.nums []))) ∧
    (∃ (d : Dict (Val Nat)), d.WF ∧ save d = none ∧ d.get 7 = some (.leaf (.nested [[], [1]]))) := by
  refine ⟨⟨.cons 7 (.dict (.cons typeKey (.leaf (.str 5)) .nil)) .nil, _, ?_, rfl, rfl⟩,
    ⟨.cons 7 (.leaf (.nums [])) .nil, ?_, rfl, rfl⟩,
    ⟨.cons 7 (.leaf (.nested [[], [1]])) .nil, ?_, rfl, rfl⟩⟩ <;> simp [Dict.WF, Tree.WF, Dict.get]

/-- Lists of lists survive the compressed form, whatever their lengths. -/
theorem compressed (l : List (List K)) : uncompress (compress 0 l).2 (compress 0 l).1 = l := by
  have h := uncompress_compress l ([] : List K)
  simpa using h

/-- Concrete cases. -/
theorem sample_case :
    (∃ r : Dict Nat, updateFromDefaults (.cons 1 (.leaf 10) (.cons 2 (.dict (.cons 3 (.leaf 20) .nil)) .nil))
        (.cons 2 (.dict (.cons 3 (.leaf 21) (.cons 4 (.leaf 22) .nil))) (.cons 5 (.leaf 23) .nil)) = some r ∧
      value [1] (.dict r) = some 10 ∧ value [2, 3] (.dict r) = some 20 ∧ value [2, 4] (.dict r) = some 22 ∧
      value [5] (.dict r) = some 23) ∧
    (∃ r : Dict (Mismatch Nat), diffDict (fun a b => decide (a = b))
        (.cons 1 (.leaf 10) (.cons 2 (.dict (.cons 3 (.leaf 20) (.cons 6 (.leaf 1) .nil))) .nil))
        (.cons 2 (.dict (.cons 3 (.leaf 21) (.cons 6 (.leaf 1) .nil))) (.cons 5 (.leaf 23) .nil)) = some r ∧
      value [1] (.dict r) = some (some 10, none) ∧ value [2, 3] (.dict r) = some (some 20, some 21) ∧
      value [2, 6] (.dict r) = none ∧ value [5] (.dict r) = some (none, some 23)) ∧
    (∃ (f : File Nat) (r : Dict (Val Nat)), save (.cons 7 (.leaf (.nested [[1, 2], [], [3]]))
        (.cons 8 (.dict (.cons 9 (.leaf (.nums [4])) (.cons 10 (.leaf .none) .nil))) .nil)) = some f ∧
      load (fun _ => none) f = some r ∧ value [7] (.dict r) = some (.nested [[1, 2], [], [3]]) ∧
      value [8, 9] (.dict r) = some (.arr [4]) ∧ value [8, 10] (.dict r) = some .none) ∧
    compress 0 [[1, 2], [], [3]] = ([0, 2, 2, 3], [1, 2, 3]) := by
  refine ⟨⟨_, rfl, rfl, rfl, rfl, rfl⟩, ⟨_, rfl, rfl, rfl, rfl, rfl⟩, ⟨_, _, rfl, rfl, rfl, rfl, rfl⟩, rfl⟩

end PyNucleus.Props.C102
