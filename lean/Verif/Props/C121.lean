import Verif.Model.YamlDict

/-!
# C121: dictionaries for YAML files
-/

namespace PyNucleus.Props.C121

open PyNucleus.YamlDict

/-- What a YAML file can express. -/
inductive Yaml where
  | num (q : ℚ)
  | text (s : String)
  | seq (l : List Yaml)
  | map (l : List (String × Yaml))

mutual
/-- The content of a value. -/
def content : Val → Yaml
  | .real q => .num q
  | .index z => .num z
  | .float q => .num q
  | .int z => .num z
  | .text s => .text s
  | .func s => .text s
  | .arr0 q => .num q
  | .arr1 l => .seq (l.map .num)
  | .arr2 l => .seq (l.map fun r => .seq (r.map .num))
  | .arr3 l => .seq (l.map fun r => .seq (r.map fun r => .seq (r.map .num)))
  | .iarr l => .seq (l.map fun z : Int => .num z)
  | .list l => .seq (contents l)
  | .dict d => .map (contentDict d)
/-- The content of a list. -/
def contents : Vals → List Yaml
  | .nil => []
  | .cons v l => content v :: contents l
/-- The content of a dictionary. -/
def contentDict : Dict → List (String × Yaml)
  | .nil => []
  | .cons k v d => (k, content v) :: contentDict d
end

mutual
/-- No objects of numpy or of the package: only what can be written to a file. -/
def Plain : Val → Prop
  | .float _ => True
  | .int _ => True
  | .text _ => True
  | .list l => Plains l
  | .dict d => PlainDict d
  | _ => False
/-- All entries are plain. -/
def Plains : Vals → Prop
  | .nil => True
  | .cons v l => Plain v ∧ Plains l
/-- All values are plain. -/
def PlainDict : Dict → Prop
  | .nil => True
  | .cons _ v d => Plain v ∧ PlainDict d
end

/-- The entries are plain or floating point numbers of numpy. -/
def Simple : Vals → Prop
  | .nil => True
  | .cons v l => (Plain v ∨ ∃ q, v = .real q) ∧ Simple l

mutual
/-- Values that are supported. -/
def Supported : Val → Prop
  | .index _ => False
  | .arr3 _ => False
  | .list l => Simple l
  | .dict d => SupportedDict d
  | _ => True
/-- Dictionaries that are supported. -/
def SupportedDict : Dict → Prop
  | .nil => True
  | .cons _ v d => Supported v ∧ SupportedDict d
end

mutual
/-- An array with three dimensions, not in a list. -/
def Has3 : Val → Prop
  | .arr3 _ => True
  | .dict d => Has3Dict d
  | _ => False
/-- One of the values has it. -/
def Has3Dict : Dict → Prop
  | .nil => False
  | .cons _ v d => Has3 v ∨ Has3Dict d
end

theorem contents_ofList {α : Type} (f : α → Val) (l : List α) : contents (ofList (l.map f)) = l.map fun a => content (f a) := by
  induction l with
  | nil => simp [ofList, contents]
  | cons a l ih => simp [ofList, contents, ih]

theorem plains_ofList {α : Type} (f : α → Val) (h : ∀ a, Plain (f a)) (l : List α) : Plains (ofList (l.map f)) := by
  induction l with
  | nil => simp [ofList, Plains]
  | cons a l ih => simp [ofList, Plains, ih, h]

theorem content_item (v : Val) : content (item v) = content v := by cases v <;> simp [item, content]

theorem contents_items : ∀ l : Vals, contents (items l) = contents l
  | .nil => by simp [items]
  | .cons v l => by simp [items, contents, content_item, contents_items l]

theorem items_items : ∀ l : Vals, items (items l) = items l
  | .nil => by simp [items]
  | .cons v l => by
    have : item (item v) = item v := by cases v <;> simp [item]
    simp [items, this, items_items l]

theorem items_ofList {α : Type} (f : α → Val) (h : ∀ a, item (f a) = f a) (l : List α) : items (ofList (l.map f)) = ofList (l.map f) := by
  induction l with
  | nil => simp [ofList, items]
  | cons a l ih => simp [ofList, items, ih, h]

mutual
theorem process_content : ∀ (v v' : Val), process v = some v' → content v' = content v
  | .dict d, v', h => by
    rw [process, Option.map_eq_some_iff] at h
    obtain ⟨d', h1, rfl⟩ := h
    simp only [content]
    rw [processDict_content d d' h1]
  | .real q, _, h => by simp only [process, Option.some.injEq] at h; subst h; simp [content]
  | .arr0 q, _, h => by simp only [process, Option.some.injEq] at h; subst h; simp [content]
  | .arr1 l, _, h => by
    simp only [process, Option.some.injEq] at h; subst h
    simp only [content, contents_ofList]
  | .arr2 l, _, h => by
    simp only [process, Option.some.injEq] at h; subst h
    simp only [content, contents_ofList]
  | .arr3 l, _, h => by simp [process] at h
  | .iarr l, _, h => by
    simp only [process, Option.some.injEq] at h; subst h
    simp only [content, contents_ofList]
  | .list l, _, h => by
    simp only [process, Option.some.injEq] at h; subst h
    simp only [content, contents_items]
  | .func s, _, h => by simp only [process, Option.some.injEq] at h; subst h; simp [content]
  | .index z, _, h => by simp only [process, Option.some.injEq] at h; subst h; simp [content]
  | .float q, _, h => by simp only [process, Option.some.injEq] at h; subst h; simp [content]
  | .int z, _, h => by simp only [process, Option.some.injEq] at h; subst h; simp [content]
  | .text s, _, h => by simp only [process, Option.some.injEq] at h; subst h; simp [content]
theorem processDict_content : ∀ (d d' : Dict), processDict d = some d' → contentDict d' = contentDict d
  | .nil, _, h => by simp only [processDict, Option.some.injEq] at h; subst h; rfl
  | .cons k v d, _, h => by
    rw [processDict] at h
    split at h
    · rename_i v' d1 h1 h2
      simp only [Option.some.injEq] at h
      subst h
      simp only [contentDict]
      rw [process_content v v' h1, processDict_content d d1 h2]
    · cases h
end

/-- Keys, their order and all contents are kept. -/
theorem kept (d d' : Dict) (h : processDict d = some d') : contentDict d' = contentDict d := processDict_content d d' h

mutual
theorem process_none : ∀ v : Val, process v = none ↔ Has3 v
  | .dict d => by simp only [process, Has3, Option.map_eq_none_iff]; exact processDict_none d
  | .arr3 l => by simp [process, Has3]
  | .real _ | .arr0 _ | .arr1 _ | .arr2 _ | .iarr _ | .list _ | .func _ | .index _ | .float _ | .int _ | .text _ => by simp [process, Has3]
theorem processDict_none : ∀ d : Dict, processDict d = none ↔ Has3Dict d
  | .nil => by simp [processDict, Has3Dict]
  | .cons k v d => by
    have h1 := process_none v
    have h2 := processDict_none d
    rw [processDict, Has3Dict, ← h1, ← h2]
    cases process v <;> cases processDict d <;> simp
end

/-- An exception is raised exactly if there is an array with three dimensions in the dictionary or in dictionaries in it. -/
theorem raises_iff (d : Dict) : processDict d = none ↔ Has3Dict d := processDict_none d

theorem plains_items : ∀ l : Vals, Simple l → Plains (items l)
  | .nil, _ => by simp [items, Plains]
  | .cons v l, h => by
    rw [Simple] at h
    rw [items, Plains]
    refine ⟨?_, plains_items l h.2⟩
    rcases h.1 with h1 | ⟨q, rfl⟩
    · cases v <;> simp_all [item, Plain]
    · simp [item, Plain]

mutual
theorem process_plain : ∀ v : Val, Supported v → ∃ v', process v = some v' ∧ Plain v'
  | .dict d, h => by
    rw [Supported] at h
    obtain ⟨d', h1, h2⟩ := processDict_plain d h
    exact ⟨.dict d', by rw [process, h1]; rfl, by rw [Plain]; exact h2⟩
  | .real q, _ => ⟨.float q, by rw [process], by simp [Plain]⟩
  | .arr0 q, _ => ⟨.float q, by rw [process], by simp [Plain]⟩
  | .arr1 l, _ => ⟨_, by rw [process], by rw [Plain]; exact plains_ofList _ (fun a => by simp [Plain]) l⟩
  | .arr2 l, _ => ⟨_, by rw [process], by
      rw [Plain]
      exact plains_ofList _ (fun a => by rw [Plain]; exact plains_ofList _ (fun a => by simp [Plain]) a) l⟩
  | .arr3 _, h => by simp [Supported] at h
  | .iarr l, _ => ⟨_, by rw [process], by rw [Plain]; exact plains_ofList _ (fun a => by simp [Plain]) l⟩
  | .list l, h => ⟨_, by rw [process], by rw [Supported] at h; rw [Plain]; exact plains_items l h⟩
  | .func s, _ => ⟨.text s, by rw [process], by simp [Plain]⟩
  | .index _, h => by simp [Supported] at h
  | .float q, _ => ⟨.float q, by rw [process], by simp [Plain]⟩
  | .int z, _ => ⟨.int z, by rw [process], by simp [Plain]⟩
  | .text s, _ => ⟨.text s, by rw [process], by simp [Plain]⟩
theorem processDict_plain : ∀ d : Dict, SupportedDict d → ∃ d', processDict d = some d' ∧ PlainDict d'
  | .nil, _ => ⟨.nil, by rw [processDict], by simp [PlainDict]⟩
  | .cons k v d, h => by
    rw [SupportedDict] at h
    obtain ⟨v', h1, h2⟩ := process_plain v h.1
    obtain ⟨d', h3, h4⟩ := processDict_plain d h.2
    exact ⟨.cons k v' d', by rw [processDict, h1, h3], by rw [PlainDict]; exact ⟨h2, h4⟩⟩
end

/-- The full statement is that the result can be written to a file. It is true for dictionaries without integers of numpy, arrays with three
dimensions, and lists of other than plain values and floating point numbers of numpy. -/
theorem writable_partial (d : Dict) (h : SupportedDict d) : ∃ d', processDict d = some d' ∧ PlainDict d' := processDict_plain d h

/-- Integers of numpy, numbers of numpy in lists of lists, arrays and functions in lists, and dictionaries with such numbers in lists are left as
they are. -/
theorem writable_fails (k : String) (z : Int) (q : ℚ) (l : List ℚ) (s : String) (v : Val)
    (hv : v = .index z ∨ v = .list (.cons (.list (.cons (.real q) .nil)) .nil) ∨ v = .list (.cons (.arr1 l) .nil) ∨
      v = .list (.cons (.func s) .nil) ∨ v = .list (.cons (.dict (.cons k (.real q) .nil)) .nil)) :
    processDict (.cons k v .nil) = some (.cons k v .nil) ∧ ¬ PlainDict (.cons k v .nil) := by
  rcases hv with rfl | rfl | rfl | rfl | rfl <;> simp [processDict, process, items, item, PlainDict, Plain, Plains]

mutual
theorem process_twice : ∀ (v v' : Val), process v = some v' → process v' = some v'
  | .dict d, v', h => by
    rw [process, Option.map_eq_some_iff] at h
    obtain ⟨d', h1, rfl⟩ := h
    rw [process, processDict_twice d d' h1]; rfl
  | .arr3 l, _, h => by simp [process] at h
  | .arr1 l, _, h => by
    simp only [process, Option.some.injEq] at h; subst h
    rw [process, items_ofList _ fun a => by simp [item]]
  | .arr2 l, _, h => by
    simp only [process, Option.some.injEq] at h; subst h
    rw [process, items_ofList _ fun a => by simp [item]]
  | .iarr l, _, h => by
    simp only [process, Option.some.injEq] at h; subst h
    rw [process, items_ofList _ fun a => by simp [item]]
  | .list l, _, h => by
    simp only [process, Option.some.injEq] at h; subst h
    rw [process, items_items]
  | .real _, _, h | .arr0 _, _, h | .func _, _, h | .index _, _, h | .float _, _, h | .int _, _, h | .text _, _, h => by
    simp only [process, Option.some.injEq] at h; subst h; simp [process]
theorem processDict_twice : ∀ (d d' : Dict), processDict d = some d' → processDict d' = some d'
  | .nil, _, h => by simp only [processDict, Option.some.injEq] at h; subst h; rw [processDict]
  | .cons k v d, _, h => by
    rw [processDict] at h
    split at h
    · rename_i v' d1 h1 h2
      simp only [Option.some.injEq] at h
      subst h
      rw [processDict, process_twice v v' h1, processDict_twice d d1 h2]
    · cases h
end

/-- A dictionary that has been prepared is not changed by preparing it again. -/
theorem idempotent (d d' : Dict) (h : processDict d = some d') : processDict d' = some d' := processDict_twice d d' h

mutual
/-- No floating point numbers of numpy directly in lists. -/
def NoReal : Val → Prop
  | .list l => NoReals l
  | .dict d => NoRealDict d
  | _ => True
/-- No floating point numbers of numpy in the list. -/
def NoReals : Vals → Prop
  | .nil => True
  | .cons v l => (∀ q, v ≠ .real q) ∧ NoReals l
/-- For all values. -/
def NoRealDict : Dict → Prop
  | .nil => True
  | .cons _ v d => NoReal v ∧ NoRealDict d
end

theorem items_same : ∀ l : Vals, items l = l ↔ NoReals l
  | .nil => by simp [items, NoReals]
  | .cons v l => by
    have h1 : item v = v ↔ ∀ q, v ≠ .real q := by cases v <;> simp [item]
    rw [items, NoReals, Vals.cons.injEq, h1, items_same l]

mutual
theorem after_same : ∀ v : Val, after v = v ↔ NoReal v
  | .list l => by rw [after, NoReal, Val.list.injEq, items_same]
  | .dict d => by rw [after, NoReal, Val.dict.injEq]; exact afterDict_same d
  | .arr3 _ | .real _ | .arr0 _ | .arr1 _ | .arr2 _ | .iarr _ | .func _ | .index _ | .float _ | .int _ | .text _ => by simp [after, NoReal]
theorem afterDict_same : ∀ d : Dict, afterDict d = d ↔ NoRealDict d
  | .nil => by simp [afterDict, NoRealDict]
  | .cons k v d => by
    have h1 := after_same v
    have h2 := afterDict_same d
    rw [afterDict, NoRealDict, Dict.cons.injEq, h1, h2]; simp
end

/-- The given dictionary is left unchanged exactly if there are no floating point numbers of numpy directly in lists. -/
theorem original_partial (d : Dict) : afterDict d = d ↔ NoRealDict d := afterDict_same d

/-- A list with such a number is changed in the given dictionary. -/
theorem original_fails (k : String) (q : ℚ) :
    afterDict (.cons k (.list (.cons (.real q) .nil)) .nil) = .cons k (.list (.cons (.float q) .nil)) .nil ∧
    afterDict (.cons k (.list (.cons (.real q) .nil)) .nil) ≠ .cons k (.list (.cons (.real q) .nil)) .nil := by
  simp [afterDict, after, items, item]

/-- A dictionary with a number, an array, a function, a list and a dictionary. -/
theorem sample_case :
    let d : Dict := .cons "h" (.real (1/2)) (.cons "x" (.arr1 [1, 2]) (.cons "f" (.func "sin") (.cons "l" (.list (.cons (.real 3)
      (.cons (.int 4) .nil))) (.cons "sub" (.dict (.cons "n" (.iarr [5]) .nil)) .nil))))
    SupportedDict d ∧ ¬ Has3Dict d ∧ ¬ NoRealDict d ∧
    processDict d = some (.cons "h" (.float (1/2)) (.cons "x" (.list (.cons (.float 1) (.cons (.float 2) .nil))) (.cons "f" (.text "sin")
      (.cons "l" (.list (.cons (.float 3) (.cons (.int 4) .nil))) (.cons "sub" (.dict (.cons "n" (.list (.cons (.int 5) .nil)) .nil)) .nil))))) := by
  refine ⟨?_, ?_, ?_, ?_⟩
  · simp [SupportedDict, Supported, Simple, Plain]
  · simp [Has3Dict, Has3]
  · simp [NoRealDict, NoReal, NoReals]
  · simp [processDict, process, items, item, ofList]

end PyNucleus.Props.C121
