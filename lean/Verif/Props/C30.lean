import Verif.Proof.Factory
import Mathlib.Data.List.Induction
import Mathlib.Data.List.Dedup
import Mathlib.Tactic.SplitIfs

/-!
# C30: factory

Full statement: after any sequence of register calls, `build(name or alias)` uses the class and parameters registered last for
the name, unknown names raise, and `isRegistered(name)` iff `build(name)` finds an entry.

Two parts fail: `isRegistered` does not bring aliases to lower case, and a name that equals an alias of another entry cannot be reached.
-/

namespace PyNucleus.Props.C30

open PyNucleus.Factory

variable {N C V : Type} [DecidableEq N]

/-- The entry registered last for a canonical name. -/
def lastReg (canon : N → N) (h : List (Reg N C V)) (c : N) : Option (Reg N C V) := h.reverse.find? fun r => decide (canon r.name = c)

/-- The entry registered last with some alias. -/
def lastAlias (canon : N → N) (h : List (Reg N C V)) (c : N) : Option (Reg N C V) :=
  h.reverse.find? fun r => decide (∃ a ∈ r.aliases, canon a = c)

private theorem classes_after (canon : N → N) (h : List (Reg N C V)) (c : N) :
    dget (Factory.after canon h).classes c = (lastReg canon h c).map fun r => (r.name, r.cls, r.params) := by
  induction h using List.reverseRecOn with
  | nil => rfl
  | append_singleton h r ih =>
    rw [after_concat, classes_register, ih]
    unfold lastReg
    rw [List.reverse_append]
    by_cases e : canon r.name = c <;> simp [e]

private theorem target_after (canon : N → N) (h : List (Reg N C V)) (c : N) :
    target (Factory.after canon h) c = (lastAlias canon h c).map fun r => canon r.name := by
  induction h using List.reverseRecOn with
  | nil => rfl
  | append_singleton h r ih =>
    rw [after_concat, target_register, ih]
    unfold lastAlias
    rw [List.reverse_append]
    by_cases e : ∃ a ∈ r.aliases, canon a = c
    · rw [if_pos e, List.reverse_singleton, List.singleton_append, List.find?_cons_of_pos (by simpa using e)]; rfl
    · rw [if_neg e, List.reverse_singleton, List.singleton_append, List.find?_cons_of_neg (by simpa using e)]

private theorem lastReg_some (canon : N → N) (h : List (Reg N C V)) (r : Reg N C V) (hr : r ∈ h) : ∃ r', lastReg canon h (canon r.name) = some r' := by
  unfold lastReg
  cases e : h.reverse.find? fun r' => decide (canon r'.name = canon r.name) with
  | some r' => exact ⟨r', rfl⟩
  | none =>
    have := List.find?_eq_none.1 e r (List.mem_reverse.2 hr)
    simp at this

/-- A name that is not also an alias of another entry finds what was registered last under it, and raises if there is nothing.
Missing for the full statement: names that are aliases of other entries (`alias_shadows_fails`). -/
theorem build_by_name_partial (canon : N → N) (h : List (Reg N C V)) (name : N) (hna : lastAlias canon h (canon name) = none) :
    (Factory.after canon h).find canon name = (lastReg canon h (canon name)).map fun r => (r.name, r.cls, r.params) := by
  rw [find_eq, target_after, hna]
  exact classes_after canon h (canon name)

/-- An alias finds the entry that last claimed it, in its last version. -/
theorem build_by_alias (canon : N → N) (h : List (Reg N C V)) (name : N) (r : Reg N C V) (hr : lastAlias canon h (canon name) = some r) :
    ∃ r', lastReg canon h (canon r.name) = some r' ∧ (Factory.after canon h).find canon name = some (r'.name, r'.cls, r'.params) := by
  obtain ⟨r', h1⟩ := lastReg_some canon h r (List.mem_reverse.1 (List.mem_of_find?_eq_some hr))
  refine ⟨r', h1, ?_⟩
  rw [find_eq, target_after, hr]
  simp only [Option.map_some, Option.getD_some]
  rw [classes_after, h1]; rfl

/-- `build` raises iff neither a name nor an alias was registered. -/
theorem unknown_name (canon : N → N) (h : List (Reg N C V)) (name : N) :
    (Factory.after canon h).find canon name = none ↔ ∀ r ∈ h, canon r.name ≠ canon name ∧ ∀ a ∈ r.aliases, canon a ≠ canon name := by
  have hA : lastAlias canon h (canon name) = none ↔ ∀ r ∈ h, ∀ a ∈ r.aliases, canon a ≠ canon name := by
    unfold lastAlias; rw [List.find?_eq_none]; simp
  have hR : lastReg canon h (canon name) = none ↔ ∀ r ∈ h, canon r.name ≠ canon name := by
    unfold lastReg; rw [List.find?_eq_none]; simp
  cases e : lastAlias canon h (canon name) with
  | none =>
    rw [build_by_name_partial canon h name e, Option.map_eq_none_iff, hR]
    exact ⟨fun q r hr => ⟨q r hr, hA.1 e r hr⟩, fun q r hr => (q r hr).1⟩
  | some r =>
    obtain ⟨r', _, h2⟩ := build_by_alias canon h name r e
    rw [h2]
    refine ⟨(fun q => by cases q), fun q => ?_⟩
    rw [hA.2 fun r hr => (q r hr).2] at e
    cases e

/-- `isRegistered` never promises too much, and is exact for names in canonical form (or names that are no alias).
Missing: aliases not in canonical form (`isRegistered_fails`). -/
theorem isRegistered_partial (canon : N → N) (hcanon : ∀ x, canon (canon x) = canon x) (h : List (Reg N C V)) (name : N) :
    ((Factory.after canon h).isRegistered canon name = true → ((Factory.after canon h).find canon name).isSome = true) ∧
      (canon name = name ∨ lastAlias canon h (canon name) = none →
        ((Factory.after canon h).find canon name).isSome = true → (Factory.after canon h).isRegistered canon name = true) := by
  have hC : (dget (Factory.after canon h).classes (canon name)).isSome = (lastReg canon h (canon name)).isSome := by
    rw [classes_after]; simp
  have hT : ∀ k, (dget (Factory.after canon h).aliases k).isSome = (lastAlias canon h k).isSome := by
    intro k
    have := congrArg Option.isSome (target_after canon h k)
    simpa [target] using this
  unfold Factory.isRegistered
  rw [Bool.or_eq_true, hC, hT]
  constructor
  · intro q
    cases e : lastAlias canon h (canon name) with
    | some r =>
      obtain ⟨r', _, h2⟩ := build_by_alias canon h name r e
      rw [h2]; rfl
    | none =>
      rw [build_by_name_partial canon h name e]
      rcases q with q | q
      · simpa using q
      · exfalso
        obtain ⟨r, hr⟩ := Option.isSome_iff_exists.1 q
        have h1 := List.find?_some hr
        obtain ⟨a, ha, h2⟩ := of_decide_eq_true h1
        rw [← h2, hcanon, h2, hr] at e
        cases e
  · intro hn q
    cases e : lastAlias canon h (canon name) with
    | none =>
      rw [build_by_name_partial canon h name e] at q
      exact Or.inl (by simpa using q)
    | some r =>
      rcases hn with hn | hn
      · rw [hn] at e
        right; rw [e]; rfl
      · rw [hn] at e; cases e

/-- The numbers of entries and of aliases: one for each canonical name. -/
theorem numRegistered_counts (canon : N → N) (h : List (Reg N C V)) :
    ((Factory.after canon h).numRegistered false = (h.map fun r => canon r.name).dedup.length) ∧
    ((Factory.after canon h).numRegistered true =
      (h.map fun r => canon r.name).dedup.length + (h.flatMap fun r => r.aliases.map canon).dedup.length) := by
  have hn : (((Factory.after canon h).classes.map Prod.fst).Nodup ∧ ((Factory.after canon h).aliases.map Prod.fst).Nodup) := by
    induction h using List.reverseRecOn with
    | nil => exact ⟨List.nodup_nil, List.nodup_nil⟩
    | append_singleton h r ih =>
      rw [after_concat]
      exact ⟨dset_nodup _ _ _ ih.1, aliasLoop_nodup _ _ _ _ ih.2⟩
  have h1 : (Factory.after canon h).classes.length = (h.map fun r => canon r.name).dedup.length := by
    rw [← List.length_map Prod.fst]
    refine List.Perm.length_eq ((List.perm_ext_iff_of_nodup hn.1 (List.nodup_dedup _)).2 fun c => ?_)
    rw [← dget_isSome, classes_after, List.mem_dedup, List.mem_map]
    unfold lastReg
    rw [Option.isSome_map, List.find?_isSome]
    simp
  have h2 : (Factory.after canon h).aliases.length = (h.flatMap fun r => r.aliases.map canon).dedup.length := by
    rw [← List.length_map Prod.fst]
    refine List.Perm.length_eq ((List.perm_ext_iff_of_nodup hn.2 (List.nodup_dedup _)).2 fun c => ?_)
    have := congrArg Option.isSome (target_after canon h c)
    rw [← dget_isSome, List.mem_dedup, List.mem_flatMap]
    unfold target at this
    rw [Option.isSome_map, Option.isSome_map] at this
    rw [this]
    unfold lastAlias
    rw [List.find?_isSome]
    simp
  unfold Factory.numRegistered
  exact ⟨by simpa using h1, by simp [h1, h2]⟩

/-! ## Arguments of the constructor -/

/-- Content of a parameter. -/
def content (heap : List V) : Val V → Option V
  | .imm v => some v
  | .ref a => heap[a]?

private theorem deepcopy_ok (p : List (String × Val V)) : ∀ (heap : List V) (n : Nat) (memo : List (Nat × Nat)), n ≤ heap.length →
    (∀ a b, dget memo a = some b → n ≤ b ∧ b < heap.length ∧ heap[b]? = heap[a]?) →
    (∀ e ∈ p, ∀ a, e.2 = .ref a → a < heap.length) →
    (∃ ext, (deepcopy heap memo p).2 = heap ++ ext) ∧ (deepcopy heap memo p).1.map Prod.fst = p.map Prod.fst ∧
    (deepcopy heap memo p).1.map (fun e => content (deepcopy heap memo p).2 e.2) = p.map (fun e => content heap e.2) ∧
    ∀ e ∈ (deepcopy heap memo p).1, ∀ b, e.2 = .ref b → n ≤ b := by
  induction p with
  | nil => intro heap n memo _ _ _; exact ⟨⟨[], by simp [deepcopy]⟩, rfl, rfl, fun e he => by cases he⟩
  | cons e p ih =>
    intro heap n memo hn hm hp
    obtain ⟨k, v⟩ := e
    have hp' : ∀ e ∈ p, ∀ a, e.2 = .ref a → a < heap.length := fun e he => hp e (List.mem_cons_of_mem _ he)
    cases v with
    | imm v =>
      obtain ⟨a1, a2, a3, a4⟩ := ih heap n memo hn hm hp'
      unfold deepcopy
      refine ⟨a1, by simp [a2], (by simp only [List.map_cons, a3]; rfl), ?_⟩
      intro e he b hb
      rcases List.mem_cons.1 he with rfl | he
      · cases hb
      · exact a4 e he b hb
    | ref a =>
      have ha : a < heap.length := hp _ List.mem_cons_self a rfl
      unfold deepcopy
      cases hd : dget memo a with
      | some b =>
        obtain ⟨⟨ext, a1⟩, a2, a3, a4⟩ := ih heap n memo hn hm hp'
        obtain ⟨m1, m2, m3⟩ := hm a b hd
        dsimp only
        refine ⟨⟨ext, a1⟩, by simp [a2], ?_, ?_⟩
        · simp only [List.map_cons, a3]
          congr 1
          simp only [content]
          rw [a1, List.getElem?_append_left m2, m3]
        · intro e he b' hb
          rcases List.mem_cons.1 he with rfl | he
          · cases hb; exact m1
          · exact a4 e he b' hb
      | none =>
        dsimp only
        rw [List.getElem?_eq_getElem ha]
        dsimp only
        obtain ⟨⟨ext, a1⟩, a2, a3, a4⟩ := ih (heap ++ [heap[a]]) n ((a, heap.length) :: memo) (by simp; omega) (by
          intro x y hxy
          rw [dget_cons] at hxy
          by_cases hx : a = x
          · rw [if_pos hx] at hxy
            cases hxy
            subst hx
            refine ⟨hn, by simp, ?_⟩
            dsimp only
            rw [List.getElem?_append_right (Nat.le_refl _), Nat.sub_self, List.getElem?_append_left ha, List.getElem?_eq_getElem ha]; rfl
          · rw [if_neg hx] at hxy
            obtain ⟨m1, m2, m3⟩ := hm x y hxy
            refine ⟨m1, by simp; omega, ?_⟩
            rw [List.getElem?_append_left m2, m3]
            have hx2 : x < heap.length := by
              rw [List.getElem?_eq_getElem m2] at m3
              exact (List.getElem?_eq_some_iff.1 m3.symm).1
            rw [List.getElem?_append_left hx2]) (fun e he x hx => by
              have := hp' e he x hx
              simp; omega)
        refine ⟨⟨heap[a] :: ext, by rw [a1]; simp⟩, by simp [a2], ?_, ?_⟩
        · simp only [List.map_cons, a3]
          congr 1
          · simp only [content]
            rw [a1, List.append_assoc, List.getElem?_append_right (Nat.le_refl _), Nat.sub_self, List.getElem?_eq_getElem ha]; rfl
          · refine List.map_congr_left fun e he => ?_
            obtain ⟨k', v⟩ := e
            cases v with
            | imm v => rfl
            | ref x => exact List.getElem?_append_left (hp' _ he x rfl)
        · intro e he b' hb
          rcases List.mem_cons.1 he with rfl | he
          · cases hb; exact hn
          · exact a4 e he b' hb

/-- The class is called with the registered parameters, overridden by the keyword arguments of the call; no mutable object of
the registered parameters is handed over: every reference the constructor gets is new or was given by the caller.  Nothing
on the heap is changed, so what a constructor does to its arguments cannot reach the registered parameters. -/
theorem constructor_arguments (canon : N → N) (F : Factory N C V) (heap : List V) (name : N) (kwargs : List (String × Val V))
    (e : N × C × List (String × Val V)) (hf : F.find canon name = some e) (hv : ∀ q ∈ e.2.2, ∀ a, q.2 = .ref a → a < heap.length) :
    ∃ p heap', F.build canon heap name kwargs = some (e.2.1, p, heap ++ heap') ∧
      (∀ k, (dget p k).bind (content (heap ++ heap')) =
        match kwargs.reverse.find? fun q => decide (q.1 = k) with
        | some q => content (heap ++ heap') q.2
        | none => (dget e.2.2 k).bind (content heap)) ∧
      ∀ q ∈ p, ∀ a, q.2 = .ref a → heap.length ≤ a ∨ q ∈ kwargs := by
  obtain ⟨⟨ext, a1⟩, a2, a3, a4⟩ := deepcopy_ok e.2.2 heap heap.length [] (Nat.le_refl _) (fun a b h => by cases h) hv
  refine ⟨dupdate (deepcopy heap [] e.2.2).1 kwargs, ext, ?_, ?_, ?_⟩
  · unfold Factory.build
    rw [hf, Option.map_some]
    dsimp only
    rw [a1]
  · intro k
    rw [dget_dupdate]
    cases hk : kwargs.reverse.find? fun q => decide (q.1 = k) with
    | some q => rfl
    | none =>
      simp only [Option.map_none, Option.none_or]
      rw [a1] at a3
      clear a1 a4 hf hv
      generalize e.2.2 = l at *
      generalize (deepcopy heap [] l).1 = l' at *
      induction l generalizing l' with
      | nil =>
        cases l' with
        | nil => rfl
        | cons _ _ => cases a2
      | cons q l ih =>
        cases l' with
        | nil => cases a2
        | cons q' l' =>
          simp only [List.map_cons, List.cons.injEq] at a2 a3
          rw [dget_cons, dget_cons, a2.1]
          split
          · exact a3.1
          · exact ih l' a2.2 a3.2
  · intro q hq a ha
    rcases dupdate_mem _ _ _ hq with h | h
    · exact Or.inr h
    · exact Or.inl (a4 q h a ha)

/-! ## Failures -/

/-- Strings, with `lower`. -/
private abbrev lower : String → String := String.toLower

/-- A registered alias, written as registered, builds but is reported as not registered. -/
theorem isRegistered_fails : ∃ (h : List (Reg String Nat Nat)) (name : String), (∃ r ∈ h, name ∈ r.aliases) ∧
    ((Factory.after lower h).find lower name).isSome = true ∧ (Factory.after lower h).isRegistered lower name = false :=
  ⟨[⟨"disc", 1, [], ["Circle"]⟩], "Circle", ⟨_, List.mem_cons_self, List.mem_cons_self⟩, by decide +kernel, by decide +kernel⟩

/-- A name that is also an alias of another entry cannot be built, even if it is registered later. -/
theorem alias_shadows_fails : ∃ (h : List (Reg String Nat Nat)) (r : Reg String Nat Nat),
    ((Factory.after lower (h ++ [r])).find lower r.name).map (fun e => e.2.1) ≠ some r.cls :=
  ⟨[⟨"disc", 1, [], ["circle"]⟩], ⟨"circle", 2, [], []⟩, by decide +kernel⟩

/-- A non-trivial history: re-registration, aliases in mixed case, parameters and references. -/
example : (Factory.after lower [⟨"Disc", 1, [("n", .imm 5)], ["Circle"]⟩, ⟨"square", 2, [], []⟩, ⟨"DISC", 3, [("n", .imm 6), ("l", .ref 0)], []⟩]).build
    lower [7] "cIRCLE" [("n", .imm 8)] = some ((3 : Nat), [("n", .imm 8), ("l", .ref 1)], [7, 7]) := by decide +kernel

end PyNucleus.Props.C30
