import Verif.Proof.Dependencies

/-!
# C100: properties that are computed from others
-/

namespace PyNucleus.Props.C100

open PyNucleus.Dependencies

variable {V : Type} [DecidableEq V]

/-- After any sequence of settings of inputs and readings, reading a property gives its value in the
solution of all equations for the current inputs, if all inputs it needs have been set: nothing is out
of date. No value is `None`, each builder has an argument, and only inputs are set. -/
theorem fresh_partial (S : System V) (rank : Nat → Nat) (hS : S.OK rank)
    (hreq : ∀ b ∈ S.builders, S.req b ≠ [])
    (hfn : ∀ b args g, (∀ a ∈ args, a ≠ none) → S.fn b args g ≠ none)
    (ops : List (Op V)) (hops : ∀ op ∈ ops, op.Plain S) (p : Nat) (w : Nat → Option V) (hw : Solves S w)
    (hin : ∀ q, S.builderOf q = none → Relation.ReflTransGen (fun a g => ∃ b, a ∈ S.req b ∧ S.builderOf g = some b) q p →
      lastSet q ops = some (w q)) :
    ∃ s', Dependencies.get S S.depth (after S ops) p = some (w p, s') := by
  have G : Good S (after S ops) := by
    unfold after
    have key : ∀ (ops : List (Op V)), (∀ op ∈ ops, op.Plain S) → ∀ s : State V, Good S s →
        Good S (ops.foldl (Op.run S) s) := by
      intro ops
      induction ops with
      | nil => intro _ s G; exact G
      | cons op ops ih =>
        intro hops s G
        exact ih (fun x hx => hops x (List.mem_cons_of_mem _ hx)) _
          (good_run hS hreq hfn G op (hops op List.mem_cons_self))
    exact key ops hops initial (good_initial S)
  have hin' : ∀ q, S.builderOf q = none → Relation.ReflTransGen (Edge S) q p →
      (after S ops).valid q = true ∧ (after S ops).value q = w q := fun q hq hqp =>
    inputs_after hS hreq hfn ops hops q hq (w q) (hin q hq hqp)
  obtain ⟨⟨v, s'⟩, h⟩ := get_some hS hreq hfn S.depth (after S ops) p G (hS.bound p)
    (fun q hq hqp => (hin' q hq hqp).1)
  obtain ⟨G', hv', hval, hk⟩ := get_ok hS hreq hfn S.depth _ p v s' G h
  have key : ∀ (n q : Nat), rank q < n → Relation.ReflTransGen (Edge S) q p → s'.valid q = true → s'.value q = w q := by
    intro n
    induction n with
    | zero => intro q h; omega
    | succ n ih =>
      intro q hq hqp hqv
      cases hb : S.builderOf q with
      | none =>
        obtain ⟨h1, h2⟩ := hin' q hb hqp
        rw [(hk q h1).2, h2]
      | some b =>
        rw [G'.value q b hb hqv, hw q b hb]
        congr 1
        refine List.map_congr_left fun r hr => ?_
        exact ih r (by have := hS.lt q b r hb hr; omega)
          (Relation.ReflTransGen.head ⟨b, hr, hb⟩ hqp) (G'.closed q b hb hqv r hr)
  refine ⟨s', ?_⟩
  rw [h, hval, key (rank p + 1) p (by omega) Relation.ReflTransGen.refl hv']

/-- Reading again gives the same value and changes nothing; in particular no method is called. -/
theorem again (S : System V) (rank : Nat → Nat) (hS : S.OK rank)
    (hreq : ∀ b ∈ S.builders, S.req b ≠ [])
    (hfn : ∀ b args g, (∀ a ∈ args, a ≠ none) → S.fn b args g ≠ none)
    (ops : List (Op V)) (hops : ∀ op ∈ ops, op.Plain S) (p : Nat) (v : Option V) (s' : State V)
    (h : Dependencies.get S S.depth (after S ops) p = some (v, s')) :
    Dependencies.get S S.depth s' p = some (v, s') := by
  have G : Good S (after S ops) := by
    unfold after
    have key : ∀ (ops : List (Op V)), (∀ op ∈ ops, op.Plain S) → ∀ s : State V, Good S s →
        Good S (ops.foldl (Op.run S) s) := by
      intro ops
      induction ops with
      | nil => intro _ s G; exact G
      | cons op ops ih =>
        intro hops s G
        exact ih (fun x hx => hops x (List.mem_cons_of_mem _ hx)) _
          (good_run hS hreq hfn G op (hops op List.mem_cons_self))
    exact key ops hops initial (good_initial S)
  obtain ⟨-, hv', hval, -⟩ := get_ok hS hreq hfn S.depth _ p v s' G h
  obtain ⟨d, hd⟩ : ∃ d, S.depth = d + 1 := ⟨S.depth - 1, by have := hS.bound p; omega⟩
  rw [hd]
  unfold Dependencies.get
  split <;> rw [if_pos hv', hval]

/-- `2` is the sum of the inputs `0` and `1`, `3` is twice as much, where `None` counts as 0. Builder 2
for `4` needs nothing. -/
def sample : System Nat where
  builders := [0, 1, 2]
  builderOf := fun p => if p = 2 then some 0 else if p = 3 then some 1 else if p = 4 then some 2 else none
  req := fun b => if b = 0 then [0, 1] else if b = 1 then [2] else []
  gen := fun b => if b = 0 then [2] else if b = 1 then [3] else if b = 2 then [4] else []
  fn := fun b args _ =>
    if b = 0 then some ((args.map (·.getD 0)).sum)
    else if b = 1 then some (2 * (args.map (·.getD 0)).sum) else some 17
  isArray := fun _ => false
  depth := 3

def read (ops : List (Op Nat)) (p : Nat) : Option (Option Nat) :=
  (Dependencies.get sample 3 (after sample ops) p).map (·.1)

/-- Values that are out of date: an input that did not change when the method was called last is no
longer known, and then cannot be told from `None`; a method without arguments, or for which all
arguments are `None`, is never called; and a computed property that was set by hand comes back although
its inputs are set. -/
theorem fresh_fails :
    (read [.set 0 (some 5), .set 1 (some 1), .get 2, .set 1 (some 2), .get 2, .set 0 none] 2 = some (some 7)) ∧
    (read [] 4 = some none) ∧
    (read [.set 0 none, .set 1 none] 2 = some none) ∧
    (read [.set 0 (some 5), .set 1 (some 1), .get 2, .set 2 (some 100), .set 0 (some 5)] 2 = some (some 100)) := by
  decide

/-- Setting an input to the value that it has already makes the method run again, if another input
changed before. -/
theorem recompute_fails :
    (after sample [.set 0 (some 5), .set 1 (some 1), .get 2, .set 0 (some 5), .get 2]).calls = [0] ∧
    (after sample [.set 0 (some 5), .set 1 (some 1), .get 2, .set 1 (some 2), .get 2, .set 0 (some 5), .get 2]).calls =
      [0, 0, 0] := by
  decide

/-- The part with arguments of the sample. -/
def small : System Nat :=
  { sample with
    builders := [0, 1]
    builderOf := fun p => if p = 2 then some 0 else if p = 3 then some 1 else none
    gen := fun b => if b = 0 then [2] else if b = 1 then [3] else [] }

theorem sample_case :
    small.OK (fun p => if p = 2 then 1 else if p = 3 then 2 else 0) ∧ (∀ b ∈ small.builders, small.req b ≠ []) ∧
    (∀ b args g, (∀ a ∈ args, a ≠ none) → small.fn b args g ≠ none) ∧
    Solves small (fun p => if p = 2 then some 8 else if p = 3 then some 16 else if p = 0 then some 5 else some 3) ∧
    (Dependencies.get small 3 (after small [.set 0 (some 1), .set 1 (some 3), .get 3, .set 0 (some 5)]) 3).map (·.1) =
      some (some 16) := by
  refine ⟨⟨?_, ?_, ?_, ?_⟩, ?_, ?_, ?_, ?_⟩
  · intro b g
    show g ∈ (if b = 0 then [2] else if b = 1 then [3] else []) ↔
      (if g = 2 then some 0 else if g = 3 then some 1 else none) = some b
    by_cases h0 : b = 0
    · subst h0
      by_cases h2 : g = 2
      · simp [h2]
      · by_cases h3 : g = 3 <;> simp [h2, h3]
    · by_cases h1 : b = 1
      · subst h1
        by_cases h2 : g = 2
        · simp [h2]
        · by_cases h3 : g = 3 <;> simp [h2, h3]
      · by_cases h2 : g = 2
        · simp [h0, h1, h2]; omega
        · by_cases h3 : g = 3
          · simp [h0, h1, h3]; omega
          · simp [h0, h1, h2, h3]
  · intro g b h
    change (if g = 2 then some 0 else if g = 3 then some 1 else none) = some b at h
    show b ∈ [0, 1]
    split at h
    · cases h; decide
    · split at h
      · cases h; decide
      · cases h
  · intro g b r h hr
    change (if g = 2 then some 0 else if g = 3 then some 1 else none) = some b at h
    change r ∈ (if b = 0 then [0, 1] else if b = 1 then [2] else []) at hr
    split at h
    · rename_i hg
      cases h
      subst hg
      simp at hr
      rcases hr with rfl | rfl <;> decide
    · split at h
      · rename_i _ hg
        cases h
        subst hg
        simp at hr
        subst hr
        decide
      · cases h
  · intro p
    show _ < 3
    split
    · omega
    · split <;> omega
  · decide
  · intro b args g _
    show (if b = 0 then some _ else if b = 1 then some _ else some _) ≠ none
    split
    · simp
    · split <;> simp
  · intro g b h
    change (if g = 2 then some 0 else if g = 3 then some 1 else none) = some b at h
    split at h
    · rename_i hg
      cases h; subst hg; decide
    · split at h
      · rename_i _ hg
        cases h; subst hg; decide
      · cases h
  · decide

end PyNucleus.Props.C100
