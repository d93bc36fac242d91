import Verif.Spec.DoFMap
import Verif.Proof.Loops
import Mathlib.Data.List.GetD
import Mathlib.Data.List.Count

/-! # Numbering -/

namespace PyNucleus.DoFMap

open PyNucleus.Loops

/-- Number of the dof at position `j` of an entity with number `b`. -/
def at' (b : Int) (j : Nat) : Int := if 0 ≤ b then b + j else b - j

/-- A table of numbers without collisions and gaps. -/
structure Good (E : Element) (T : Key → Option Int) (num nb : Nat) : Prop where
  inj : ∀ k k' b b' j j', T k = some b → T k' = some b' → j < E.count k → j' < E.count k' → at' b j = at' b' j' → k = k' ∧ j = j'
  range : ∀ k b j, T k = some b → j < E.count k → (0 ≤ b → at' b j < num) ∧ (b < 0 → -(nb : Int) ≤ at' b j)
  onto : ∀ d : Int, -(nb : Int) ≤ d → d < num → ∃ k b j, T k = some b ∧ j < E.count k ∧ at' b j = d

theorem good_empty (E : Element) : Good E (fun _ => none) 0 0 where
  inj := fun k k' b b' j j' h => by cases h
  range := fun k b j h => by cases h
  onto := fun d h1 h2 => by omega

theorem at_nonneg {b : Int} (h : 0 ≤ b) (j : Nat) : at' b j = b + j := if_pos h
theorem at_neg {b : Int} (h : b < 0) (j : Nat) : at' b j = b - j := if_neg (by omega)

theorem Good.add {E : Element} {T : Key → Option Int} {num nb : Nat} (h : Good E T num nb) {k : Key} (hk : T k = none) :
    Good E (Function.update T k (some (num : Int))) (num + E.count k) nb where
  inj := by
    intro a a' b b' j j' h1 h2 h3 h4 h5
    have key : ∀ a b j, T a = some b → j < E.count a → ∀ i : Nat, at' b j ≠ at' (num : Int) i := by
      intro a b j ha hj i e
      rw [at_nonneg (by omega) i] at e
      have hr := h.range a b j ha hj
      by_cases hb : 0 ≤ b
      · have := hr.1 hb; omega
      · rw [at_neg (by omega)] at e; omega
    by_cases e1 : a = k
    · subst e1
      rw [Function.update_self] at h1
      cases h1
      by_cases e2 : a' = a
      · subst e2
        rw [Function.update_self] at h2
        cases h2
        rw [at_nonneg (by omega), at_nonneg (by omega)] at h5
        exact ⟨rfl, by omega⟩
      · rw [Function.update_of_ne e2] at h2
        exact absurd h5.symm (key a' b' j' h2 h4 j)
    · rw [Function.update_of_ne e1] at h1
      by_cases e2 : a' = k
      · subst e2
        rw [Function.update_self] at h2
        cases h2
        exact absurd h5 (key a b j h1 h3 j')
      · rw [Function.update_of_ne e2] at h2
        exact h.inj a a' b b' j j' h1 h2 h3 h4 h5
  range := by
    intro a b j h1 h2
    by_cases e1 : a = k
    · subst e1
      rw [Function.update_self] at h1
      cases h1
      refine ⟨fun hb => ?_, fun hb => by omega⟩
      rw [at_nonneg hb]; push_cast; omega
    · rw [Function.update_of_ne e1] at h1
      have := h.range a b j h1 h2
      exact ⟨fun hb => by have := this.1 hb; push_cast; omega, this.2⟩
  onto := by
    intro d h1 h2
    by_cases hd : d < num
    · obtain ⟨a, b, j, h3, h4, h5⟩ := h.onto d h1 hd
      refine ⟨a, b, j, ?_, h4, h5⟩
      rw [Function.update_of_ne]
      · exact h3
      · intro e; subst e; rw [hk] at h3; cases h3
    · refine ⟨k, num, (d - num).toNat, Function.update_self .., ?_, ?_⟩
      · push_cast at h2; omega
      · rw [at_nonneg (by omega)]; omega

theorem Good.addBoundary {E : Element} {T : Key → Option Int} {num nb : Nat} (h : Good E T num nb) {k : Key} (hk : T k = none) :
    Good E (Function.update T k (some (-(nb : Int) - 1))) num (nb + E.count k) where
  inj := by
    intro a a' b b' j j' h1 h2 h3 h4 h5
    have key : ∀ a b j, T a = some b → j < E.count a → ∀ i : Nat, at' b j ≠ at' (-(nb : Int) - 1) i := by
      intro a b j ha hj i e
      rw [at_neg (by omega) i] at e
      have hr := h.range a b j ha hj
      by_cases hb : 0 ≤ b
      · rw [at_nonneg hb] at e; omega
      · have := hr.2 (by omega); omega
    by_cases e1 : a = k
    · subst e1
      rw [Function.update_self] at h1
      cases h1
      by_cases e2 : a' = a
      · subst e2
        rw [Function.update_self] at h2
        cases h2
        rw [at_neg (by omega), at_neg (by omega)] at h5
        exact ⟨rfl, by omega⟩
      · rw [Function.update_of_ne e2] at h2
        exact absurd h5.symm (key a' b' j' h2 h4 j)
    · rw [Function.update_of_ne e1] at h1
      by_cases e2 : a' = k
      · subst e2
        rw [Function.update_self] at h2
        cases h2
        exact absurd h5 (key a b j h1 h3 j')
      · rw [Function.update_of_ne e2] at h2
        exact h.inj a a' b b' j j' h1 h2 h3 h4 h5
  range := by
    intro a b j h1 h2
    by_cases e1 : a = k
    · subst e1
      rw [Function.update_self] at h1
      cases h1
      refine ⟨fun hb => by omega, fun hb => ?_⟩
      rw [at_neg hb]; push_cast; omega
    · rw [Function.update_of_ne e1] at h1
      have := h.range a b j h1 h2
      exact ⟨this.1, fun hb => by have := this.2 hb; push_cast; omega⟩
  onto := by
    intro d h1 h2
    by_cases hd : -(nb : Int) ≤ d
    · obtain ⟨a, b, j, h3, h4, h5⟩ := h.onto d hd h2
      refine ⟨a, b, j, ?_, h4, h5⟩
      rw [Function.update_of_ne]
      · exact h3
      · intro e; subst e; rw [hk] at h3; cases h3
    · refine ⟨k, -(nb : Int) - 1, (-(nb : Int) - 1 - d).toNat, Function.update_self .., ?_, ?_⟩
      · push_cast at h1; omega
      · rw [at_neg (by omega)]; omega

/-! ## Boundary entities -/

theorem boundaryTable_spec (E : Element) (keys : List Key) (hn : keys.Nodup) :
    ∃ nb : Nat, (boundaryTable E keys).2 = -(nb : Int) - 1 ∧ Good E (boundaryTable E keys).1 0 nb ∧
      (∀ k, (∃ b, (boundaryTable E keys).1 k = some b) ↔ k ∈ keys) ∧ ∀ k b, (boundaryTable E keys).1 k = some b → b < 0 := by
  unfold boundaryTable
  have : ∀ (l : List Key) (T : Key → Option Int) (nb : Nat), l.Nodup → (∀ k ∈ l, T k = none) → Good E T 0 nb → (∀ k b, T k = some b → b < 0) →
      ∃ nb' : Nat, (l.foldl (bstep E) (T, -(nb : Int) - 1)).2 =
        -(nb' : Int) - 1 ∧
      Good E (l.foldl (bstep E) (T, -(nb : Int) - 1)).1 0 nb' ∧
      (∀ k, (∃ b, (l.foldl (bstep E) (T, -(nb : Int) - 1)).1 k = some b) ↔
        k ∈ l ∨ ∃ b, T k = some b) ∧
      ∀ k b, (l.foldl (bstep E) (T, -(nb : Int) - 1)).1 k = some b → b < 0 := by
    intro l
    induction l with
    | nil => intro T nb _ _ h1 h2; exact ⟨nb, rfl, h1, fun k => by simp, h2⟩
    | cons a l ih =>
      intro T nb hn hT hg hneg
      obtain ⟨hna, hnl⟩ := List.nodup_cons.1 hn
      have ha := hT a List.mem_cons_self
      rw [List.foldl_cons]
      have e : bstep E (T, -(nb : Int) - 1) a = (Function.update T a (some (-(nb : Int) - 1)), -((nb + E.count a : Nat) : Int) - 1) := by
        unfold bstep
        dsimp only
        simp only [ha, Option.isSome_none, Bool.false_eq_true, if_false, Prod.mk.injEq, true_and]
        push_cast; omega
      rw [e]
      obtain ⟨nb', i1, i2, i3, i4⟩ := ih (Function.update T a (some (-(nb : Int) - 1))) (nb + E.count a) hnl
        (fun k hk => by rw [Function.update_of_ne (show k ≠ a from fun q => hna (q ▸ hk))]; exact hT k (List.mem_cons_of_mem _ hk))
        (hg.addBoundary ha) (fun k b hb => by
          by_cases q : k = a
          · subst q; rw [Function.update_self] at hb; cases hb; omega
          · rw [Function.update_of_ne q] at hb; exact hneg k b hb)
      refine ⟨nb', i1, i2, fun k => (i3 k).trans ?_, i4⟩
      by_cases q : k = a
      · subst q; simp
      · rw [Function.update_of_ne q]; simp [q]
  obtain ⟨nb, h1, h2, h3, h4⟩ := this keys (fun _ => none) 0 hn (fun _ _ => rfl) (good_empty E) (fun k b h => by cases h)
  exact ⟨nb, h1, h2, fun k => (h3 k).trans (by simp), h4⟩

/-! ## The main loop -/

/-- Dofs of an entity, given its final number. -/
def out (E : Element) (T : Key → Option Int) (e : Key × Bool) : List Int :=
  match T e.1 with
  | some b => (List.range (E.count e.1)).map fun j => at' b (position e.1 e.2 (E.count e.1) j)
  | none => List.replicate (E.count e.1) unset

theorem expandNew_eq (n : Nat) (k : Key) (rev : Bool) (d : Nat) :
    expandNew n k rev (d : Int) = (List.range n).map fun j => at' (d : Int) (position k rev n j) := by
  have h0 : (0 : Int) ≤ (d : Int) := by omega
  cases k <;> cases rev <;> unfold expandNew position <;> dsimp only <;> refine List.map_congr_left fun j hj => ?_ <;>
    rw [at_nonneg h0]
  have := List.mem_range.1 hj
  omega

theorem expandOld_eq (n : Nat) (k : Key) (rev : Bool) (b : Int) (hface : k.isFace = true → n ≤ 1)
    (hrev : b < 0 → rev = true → n ≤ 1) :
    expandOld n k rev b = (List.range n).map fun j => at' b (position k rev n j) := by
  by_cases hb : 0 ≤ b
  · cases k <;> cases rev <;> unfold expandOld position <;> dsimp only <;> rw [if_pos hb] <;> refine List.map_congr_left fun j hj => ?_ <;>
      rw [at_nonneg hb] <;> have := List.mem_range.1 hj
    · omega
    · have := hface rfl; omega
    · have := hface rfl; omega
  · have hb' : b < 0 := by omega
    have h1 := hrev hb'
    cases k <;> cases rev <;> unfold expandOld position <;> dsimp only <;> rw [if_neg hb] <;> refine List.map_congr_left fun j hj => ?_ <;>
      rw [at_neg hb'] <;> have := List.mem_range.1 hj
    have := h1 rfl
    omega

/-- Number of visits of an entity. -/
def cnt (l : List (Bool × Key × Bool)) (k : Key) : Nat := l.countP fun e => decide (e.2.1 = k)

theorem cnt_cons (e : Bool × Key × Bool) (l : List (Bool × Key × Bool)) (k : Key) : cnt (e :: l) k = cnt l k + if e.2.1 = k then 1 else 0 := by
  unfold cnt
  rw [List.countP_cons]
  simp

/-- The table of the program, in which faces disappear, against the table of all numbers. -/
def Rel (real T : Key → Option Int) (l : List (Bool × Key × Bool)) : Prop :=
  ∀ k, (real k = T k ∧ (k.isFace = true → cnt l k ≤ if T k = none then 2 else 1)) ∨ (real k = none ∧ cnt l k = 0)

theorem visits_spec (E : Element) (hface : E.perFace ≤ 1) (nb : Nat) : ∀ (l : List (Bool × Key × Bool)) (real T : Key → Option Int) (num : Nat),
    Rel real T l → Good E T num nb → l.Pairwise (fun a b => a.1 = true → b.1 = true) →
    (∀ e ∈ l, ∀ b, T e.2.1 = some b → b < 0 → e.2.2 = true → E.count e.2.1 ≤ 1) →
    ∃ T' : Key → Option Int, Good E T' (visits E ⟨real, num⟩ l).2.num nb ∧ (∀ k b, T k = some b → T' k = some b) ∧
      (∀ k b, T' k = some b → T k = none → 0 ≤ b ∧ ∃ e ∈ l, e.1 = false ∧ e.2.1 = k) ∧
      (∀ e ∈ l, e.1 = false → ∃ b, T' e.2.1 = some b) ∧
      (visits E ⟨real, num⟩ l).1 = l.map fun e => out E T' e.2 := by
  intro l
  induction l with
  | nil =>
    intro real T num _ hg _ _
    exact ⟨T, hg, fun _ _ h => h, fun k b h h' => (by rw [h] at h'; cases h'), (fun e he => by cases he), rfl⟩
  | cons e l ih =>
    intro real T num hrel hg hskip hrev
    obtain ⟨sk, k, rev⟩ := e
    obtain ⟨hs1, hs2⟩ := List.pairwise_cons.1 hskip
    have hck : cnt ((sk, k, rev) :: l) k = cnt l k + 1 := by rw [cnt_cons]; simp
    have hcother : ∀ k', k' ≠ k → cnt ((sk, k, rev) :: l) k' = cnt l k' := fun k' hne => by rw [cnt_cons, if_neg (fun q => hne q.symm)]; rfl
    have hrk : real k = T k := by
      rcases hrel k with h | h
      · exact h.1
      · omega
    have hfc : k.isFace = true → E.count k ≤ 1 := by cases k <;> intro h <;> first | exact hface | cases h
    unfold visits
    dsimp only
    cases hT : T k with
    | some b =>
      have hreal : real k = some b := hrk.trans hT
      have hv : visit E sk ⟨real, num⟩ (k, rev) = (expandOld (E.count k) k rev b,
          ⟨if k.isFace then Function.update real k none else real, num⟩) := by
        unfold visit; dsimp only; rw [hreal]
      rw [hv]
      dsimp only
      have hR : Rel (if k.isFace then Function.update real k none else real) T l := by
        intro k'
        by_cases q : k' = k
        · subst q
          by_cases hf : k'.isFace = true
          · right
            rw [if_pos hf, Function.update_self]
            refine ⟨rfl, ?_⟩
            rcases hrel k' with h | h
            · have := h.2 hf
              rw [hT, if_neg (by simp)] at this
              omega
            · omega
          · left
            rw [if_neg hf]
            exact ⟨hrk, fun h => absurd h hf⟩
        · have e1 : (if k.isFace then Function.update real k none else real) k' = real k' := by
            split
            · rw [Function.update_of_ne q]
            · rfl
          rw [e1]
          have := hrel k'
          rwa [hcother k' q] at this
      obtain ⟨T', i1, i2, i3, i4, i5⟩ := ih (if k.isFace then Function.update real k none else real) T num hR hg hs2
        (fun e he => hrev e (List.mem_cons_of_mem _ he))
      refine ⟨T', i1, i2, fun k' b' h h' => ?_, fun e he hsk => ?_, ?_⟩
      · obtain ⟨j1, e, j2, j3⟩ := i3 k' b' h h'
        exact ⟨j1, e, List.mem_cons_of_mem _ j2, j3⟩
      · rcases List.mem_cons.1 he with q | q
        · exact ⟨b, by rw [q]; exact i2 k b hT⟩
        · exact i4 e q hsk
      · rw [List.map_cons, i5]
        congr 1
        unfold out
        dsimp only
        rw [i2 k b hT]
        exact expandOld_eq _ _ _ _ hfc (fun hb hr => hrev _ List.mem_cons_self b hT hb hr)
    | none =>
      have hreal : real k = none := hrk.trans hT
      cases sk with
      | true =>
        have hv : visit E true ⟨real, num⟩ (k, rev) = (List.replicate (E.count k) unset, ⟨real, num⟩) := by
          unfold visit; dsimp only; rw [hreal]; rfl
        rw [hv]
        dsimp only
        have hR : Rel real T l := by
          intro k'
          by_cases q : k' = k
          · subst q
            left
            refine ⟨hrk, fun hf => ?_⟩
            rcases hrel k' with h | h
            · have := h.2 hf; omega
            · omega
          · have := hrel k'
            rwa [hcother k' q] at this
        obtain ⟨T', i1, i2, i3, i4, i5⟩ := ih real T num hR hg hs2 (fun e he => hrev e (List.mem_cons_of_mem _ he))
        refine ⟨T', i1, i2, fun k' b' h h' => ?_, fun e he hsk => ?_, ?_⟩
        · obtain ⟨j1, e, j2, j3⟩ := i3 k' b' h h'
          exact ⟨j1, e, List.mem_cons_of_mem _ j2, j3⟩
        · rcases List.mem_cons.1 he with q | q
          · rw [q] at hsk; cases hsk
          · exact i4 e q hsk
        · rw [List.map_cons, i5]
          congr 1
          have : T' k = none := by
            cases hT' : T' k with
            | none => rfl
            | some b =>
              obtain ⟨-, e, j2, j3, -⟩ := i3 k b hT' hT
              rw [hs1 e j2 rfl] at j3
              cases j3
          unfold out
          dsimp only
          rw [this]
      | false =>
        have hv : visit E false ⟨real, num⟩ (k, rev) = (expandNew (E.count k) k rev num,
            ⟨Function.update real k (some (num : Int)), num + E.count k⟩) := by
          unfold visit; dsimp only; rw [hreal]; rfl
        rw [hv]
        dsimp only
        have hR : Rel (Function.update real k (some (num : Int))) (Function.update T k (some (num : Int))) l := by
          intro k'
          by_cases q : k' = k
          · subst q
            left
            refine ⟨by rw [Function.update_self, Function.update_self], fun hf => ?_⟩
            rw [Function.update_self, if_neg (by simp)]
            rcases hrel k' with h | h
            · have := h.2 hf; rw [hT, if_pos rfl] at this; omega
            · omega
          · rw [Function.update_of_ne q, Function.update_of_ne q]
            have := hrel k'
            rwa [hcother k' q] at this
        obtain ⟨T', i1, i2, i3, i4, i5⟩ := ih (Function.update real k (some (num : Int))) (Function.update T k (some (num : Int))) (num + E.count k) hR
          (hg.add hT) hs2 (fun e he b hb hneg => by
            by_cases q : e.2.1 = k
            · rw [q, Function.update_self] at hb; cases hb; omega
            · rw [Function.update_of_ne q] at hb
              exact hrev e (List.mem_cons_of_mem _ he) b hb hneg)
        have hk' := i2 k num (Function.update_self ..)
        refine ⟨T', i1, fun k' b' h => ?_, fun k' b' h h' => ?_, fun e he hsk => ?_, ?_⟩
        · refine i2 k' b' ?_
          rw [Function.update_of_ne (fun q => by rw [q, hT] at h; cases h)]
          exact h
        · by_cases q : k' = k
          · subst q
            rw [hk'] at h
            cases h
            exact ⟨by omega, _, List.mem_cons_self, rfl, rfl⟩
          · obtain ⟨j1, e, j2, j3⟩ := i3 k' b' h (by rw [Function.update_of_ne q]; exact h')
            exact ⟨j1, e, List.mem_cons_of_mem _ j2, j3⟩
        · rcases List.mem_cons.1 he with q | q
          · exact ⟨num, by rw [q]; exact hk'⟩
          · exact i4 e q hsk
        · rw [List.map_cons, i5]
          congr 1
          unfold out
          dsimp only
          rw [hk']
          exact expandNew_eq _ _ _ _

/-! ## Cells -/

theorem visits_append (E : Element) : ∀ (l1 l2 : List (Bool × Key × Bool)) (s : State),
    visits E s (l1 ++ l2) = ((visits E s l1).1 ++ (visits E (visits E s l1).2 l2).1, (visits E (visits E s l1).2 l2).2) := by
  intro l1
  induction l1 with
  | nil => intro l2 s; rfl
  | cons e l1 ih =>
    intro l2 s
    rw [List.cons_append]
    simp only [visits]
    rw [ih]
    rfl

theorem visits_length (E : Element) : ∀ (l : List (Bool × Key × Bool)) (s : State), (visits E s l).1.length = l.length := by
  intro l
  induction l with
  | nil => intro s; rfl
  | cons e l ih => intro s; unfold visits; dsimp only; rw [List.length_cons, ih, List.length_cons]

/-- All visits of cells `i`, `i+1`, …. -/
def visitList (E : Element) (dim skip : Nat) : Nat → List (List Nat) → List (Bool × Key × Bool)
  | _, [] => []
  | i, c :: cells => E.cellVisits dim skip i c ++ visitList E dim skip (i + 1) cells

theorem cellLoop_spec (E : Element) (dim skip : Nat) (f : Bool × Key × Bool → List Int) : ∀ (cells : List (List Nat)) (i : Nat) (s : State),
    (visits E s (visitList E dim skip i cells)).1 = (visitList E dim skip i cells).map f →
    (cellLoop E dim skip i s cells).2 = (visits E s (visitList E dim skip i cells)).2 ∧
    (cellLoop E dim skip i s cells).1.length = cells.length ∧
    ∀ m, m < cells.length → (cellLoop E dim skip i s cells).1.getD m [] = (E.cellVisits dim skip (i + m) (cells.getD m [])).flatMap f := by
  intro cells
  induction cells with
  | nil => intro i s _; exact ⟨rfl, rfl, fun m hm => by cases hm⟩
  | cons c cells ih =>
    intro i s h
    unfold visitList at h
    rw [visits_append, List.map_append] at h
    obtain ⟨h1, h2⟩ := List.append_inj h (by rw [visits_length, List.length_map])
    obtain ⟨i1, i2, i3⟩ := ih (i + 1) _ h2
    unfold cellLoop visitList
    dsimp only
    rw [visits_append]
    refine ⟨i1, by rw [List.length_cons, i2, List.length_cons], fun m hm => ?_⟩
    cases m with
    | zero =>
      rw [List.getD_cons_zero, List.getD_cons_zero, h1, Nat.add_zero, List.flatMap]
    | succ m =>
      rw [List.getD_cons_succ, List.getD_cons_succ, i3 m (by rw [List.length_cons] at hm; omega), show i + 1 + m = i + (m + 1) by omega]

theorem mem_visitList (E : Element) (dim skip : Nat) (e : Bool × Key × Bool) : ∀ (cells : List (List Nat)) (i : Nat),
    e ∈ visitList E dim skip i cells ↔ ∃ m, m < cells.length ∧ e ∈ E.cellVisits dim skip (i + m) (cells.getD m []) := by
  intro cells
  induction cells with
  | nil => intro i; simp [visitList]
  | cons c cells ih =>
    intro i
    unfold visitList
    rw [List.mem_append, ih]
    constructor
    · rintro (h | ⟨m, h1, h2⟩)
      · exact ⟨0, by simp, by simpa using h⟩
      · exact ⟨m + 1, by rw [List.length_cons]; omega, by rw [List.getD_cons_succ, show i + (m + 1) = i + 1 + m by omega]; exact h2⟩
    · rintro ⟨m, h1, h2⟩
      cases m with
      | zero => left; simpa using h2
      | succ m =>
        right
        rw [List.length_cons] at h1
        rw [List.getD_cons_succ, show i + (m + 1) = i + 1 + m by omega] at h2
        exact ⟨m, by omega, h2⟩

theorem visitList_skip (E : Element) (dim skip : Nat) : ∀ (cells : List (List Nat)) (i : Nat),
    (visitList E dim skip i cells).Pairwise (fun a b => a.1 = true → b.1 = true) ∧ ∀ e ∈ visitList E dim skip i cells, skip ≤ i → e.1 = true := by
  intro cells
  induction cells with
  | nil => intro i; exact ⟨List.Pairwise.nil, fun e he => by cases he⟩
  | cons c cells ih =>
    intro i
    obtain ⟨h1, h2⟩ := ih (i + 1)
    have hc : ∀ e ∈ E.cellVisits dim skip i c, e.1 = decide (skip ≤ i) := by
      intro e he
      unfold Element.cellVisits at he
      obtain ⟨q, -, rfl⟩ := List.mem_map.1 he
      rfl
    unfold visitList
    constructor
    · rw [List.pairwise_append]
      refine ⟨?_, h1, fun a ha b hb h => ?_⟩
      · refine List.Pairwise.imp_of_mem (R := fun _ _ => True) ?_ (List.pairwise_of_forall fun _ _ => trivial)
        intro a b ha hb _ h
        rw [hc b hb, ← hc a ha, h]
      · rw [hc a ha] at h
        exact h2 b hb (by have := of_decide_eq_true h; omega)
    · intro e he hs
      rcases List.mem_append.1 he with h | h
      · rw [hc e h]; exact decide_eq_true hs
      · exact h2 e h (by omega)

theorem cnt_append (l1 l2 : List (Bool × Key × Bool)) (k : Key) : cnt (l1 ++ l2) k = cnt l1 k + cnt l2 k := List.countP_append

/-- An entity is visited at most as often as it occurs. -/
theorem cnt_visitList (E : Element) (dim skip : Nat) (k : Key) : ∀ (cells : List (List Nat)) (i : Nat),
    cnt (visitList E dim skip i cells) k ≤ ((List.range cells.length).flatMap fun m => (entities dim (i + m) (cells.getD m [])).map Prod.fst).count k := by
  intro cells
  induction cells with
  | nil => intro i; simp [visitList, cnt]
  | cons c cells ih =>
    intro i
    unfold visitList
    rw [cnt_append, List.length_cons, List.range_succ_eq_map, List.flatMap_cons, List.count_append, List.flatMap_map]
    refine Nat.add_le_add ?_ ?_
    · rw [Nat.add_zero, List.getD_cons_zero]
      unfold cnt Element.cellVisits Element.entities
      rw [List.countP_map, List.countP_filter, List.count, List.countP_map]
      refine List.countP_mono_left fun x _ hx => ?_
      simp only [Function.comp_apply, Bool.and_eq_true, decide_eq_true_eq] at hx ⊢
      simpa using hx.1
    · refine Nat.le_trans (ih (i + 1)) (Nat.le_of_eq ?_)
      congr 2
      funext m
      rw [List.getD_cons_succ, show i + 1 + m = i + m.succ by omega]

/-- What the constructor computes. -/
theorem build_spec (E : Element) (dim : Nat) (cells : List (List Nat)) (bnd : List Key) (skip : Nat)
    (ha : Admissible E dim cells bnd) (hf : Forward E dim cells bnd) :
    ∃ (T : Key → Option Int) (nb : Nat), Good E T (build E dim cells bnd skip).numDofs nb ∧ (build E dim cells bnd skip).numBoundaryDofs = nb ∧
      (build E dim cells bnd skip).dofs.length = cells.length ∧
      (∀ i, i < cells.length → (build E dim cells bnd skip).dofs.getD i [] = (E.entities dim i (cells.getD i [])).flatMap (out E T)) ∧
      (∀ k b, T k = some b → (b < 0 ↔ k ∈ bnd)) ∧ (∀ k ∈ bnd, 0 < E.count k → ∃ b, T k = some b) ∧
      (∀ k b, T k = some b → k ∉ bnd → ∃ i, i < cells.length ∧ i < skip ∧ ∃ e ∈ E.entities dim i (cells.getD i []), e.1 = k) ∧
      (∀ i, i < cells.length → i < skip → ∀ e ∈ E.entities dim i (cells.getD i []), ∃ b, T e.1 = some b) := by
  set B := bnd.filter fun k => decide (0 < E.count k) with hB
  have hmemB : ∀ k, k ∈ B ↔ k ∈ bnd ∧ 0 < E.count k := fun k => by rw [hB, List.mem_filter]; simp
  obtain ⟨nb, b1, b2, b3, b4⟩ := boundaryTable_spec E B (ha.nodup.filter _)
  set T0 := (boundaryTable E B).1 with hT0
  have hcell : ∀ m sk, ∀ e ∈ E.cellVisits dim skip m sk, e.2 ∈ E.entities dim m sk ∧ e.1 = decide (skip ≤ m) := by
    intro m sk e he
    unfold Element.cellVisits at he
    obtain ⟨q, hq, rfl⟩ := List.mem_map.1 he
    exact ⟨hq, rfl⟩
  have hcount : ∀ m sk, ∀ e ∈ E.entities dim m sk, 0 < E.count e.1 := by
    intro m sk e he
    unfold Element.entities at he
    exact of_decide_eq_true (List.mem_filter.1 he).2
  have hrel : Rel T0 T0 (visitList E dim skip 0 cells) := by
    intro k
    left
    refine ⟨rfl, fun hk => ?_⟩
    by_cases h0 : cnt (visitList E dim skip 0 cells) k = 0
    · rw [h0]; split <;> omega
    · have hpos : 0 < E.perFace := by
        have : 0 < cnt (visitList E dim skip 0 cells) k := by omega
        unfold cnt at this
        obtain ⟨e, he, h2⟩ := List.countP_pos_iff.1 this
        obtain ⟨m, -, hm⟩ := (mem_visitList E dim skip e cells 0).1 he
        have h3 := hcount _ _ _ (hcell _ _ e hm).1
        rw [of_decide_eq_true h2] at h3
        cases k <;> first | exact h3 | cases hk
      have h1 := cnt_visitList E dim skip k cells 0
      have h2 := ha.faces hpos k hk
      unfold allEntities at h2
      simp only [Nat.zero_add] at h1
      have h3 := Nat.le_trans h1 h2
      have hck : 0 < E.count k := by cases k <;> first | exact hpos | cases hk
      cases hT : T0 k with
      | none =>
        rw [if_pos rfl]
        refine Nat.le_trans h3 ?_
        split <;> omega
      | some b =>
        rw [if_neg (by simp)]
        have : k ∈ bnd := ((hmemB k).1 ((b3 k).1 ⟨b, hT⟩)).1
        rwa [if_pos this] at h3
  obtain ⟨T, c1, c2, c3, c4, c5⟩ := visits_spec E ha.perFace nb (visitList E dim skip 0 cells) T0 T0 0 hrel b2 (visitList_skip E dim skip cells 0).1
    (by
      intro e he b hb hneg hr
      obtain ⟨m, hm, hm2⟩ := (mem_visitList E dim skip e cells 0).1 he
      rw [Nat.zero_add] at hm2
      have h1 := (hcell _ _ e hm2).1
      have h2 : e.2 ∈ entities dim m (cells.getD m []) := by
        unfold Element.entities at h1
        exact (List.mem_filter.1 h1).1
      rcases hf with h | h
      · have : ∃ a b, e.2.1 = Key.edge a b := by
          unfold entities at h2
          simp only [List.mem_append, List.mem_map, List.mem_singleton] at h2
          rcases h2 with ((⟨_, -, q⟩ | ⟨f, -, q⟩) | ⟨_, -, q⟩) | q
          · rw [← q] at hr; cases hr
          · rw [← q]; dsimp only; unfold sortEdge; split <;> exact ⟨_, _, rfl⟩
          · rw [← q] at hr; cases hr
          · rw [q] at hr; cases hr
        obtain ⟨a, b, q⟩ := this
        rw [q]; exact h
      · exact absurd ((hmemB _).1 ((b3 _).1 ⟨b, hb⟩)).1 (h m hm e.2 h2 hr))
  obtain ⟨d1, d2, d3⟩ := cellLoop_spec E dim skip (fun e => out E T e.2) cells 0 ⟨T0, 0⟩ c5
  have hnum : (build E dim cells bnd skip).numDofs = (visits E ⟨T0, 0⟩ (visitList E dim skip 0 cells)).2.num := by
    rw [← d1]; rfl
  refine ⟨T, nb, by rw [hnum]; exact c1, ?_, d2, fun i hi => ?_, fun k b hk => ?_, fun k hk h0 => ?_, fun k b hk hnb => ?_, fun i hi hs e he => ?_⟩
  · show -(boundaryTable E B).2 - 1 = (nb : Int)
    rw [b1]; omega
  · refine (d3 i hi).trans ?_
    rw [Nat.zero_add]
    unfold Element.cellVisits
    rw [List.flatMap_map]
  · cases h0 : T0 k with
    | some b' =>
      have := c2 k b' h0
      rw [hk] at this
      cases this
      exact ⟨fun _ => ((hmemB k).1 ((b3 k).1 ⟨b, h0⟩)).1, fun _ => b4 k b h0⟩
    | none =>
      obtain ⟨j1, e, j2, -, j4⟩ := c3 k b hk h0
      refine ⟨fun h => by omega, fun h => ?_⟩
      obtain ⟨m, hm, hm2⟩ := (mem_visitList E dim skip e cells 0).1 j2
      have h3 := hcount _ _ _ (hcell _ _ e hm2).1
      rw [j4] at h3
      obtain ⟨b', hb'⟩ := (b3 k).2 ((hmemB k).2 ⟨h, h3⟩)
      have hb' : T0 k = some b' := hb'
      rw [h0] at hb'; cases hb'
  · obtain ⟨b, hb⟩ := (b3 k).2 ((hmemB k).2 ⟨hk, h0⟩)
    exact ⟨b, c2 k b hb⟩
  · have h0 : T0 k = none := by
      cases h0 : T0 k with
      | none => rfl
      | some b' => exact absurd ((hmemB k).1 ((b3 k).1 ⟨b', h0⟩)).1 hnb
    obtain ⟨-, e, j2, j3, j4⟩ := c3 k b hk h0
    obtain ⟨m, hm, hm2⟩ := (mem_visitList E dim skip e cells 0).1 j2
    rw [Nat.zero_add] at hm2
    have h5 := hcell _ _ e hm2
    rw [h5.2] at j3
    exact ⟨m, hm, by have := of_decide_eq_false j3; omega, e.2, h5.1, j4⟩
  · refine c4 (false, e) ((mem_visitList E dim skip _ cells 0).2 ⟨i, hi, ?_⟩) rfl
    rw [Nat.zero_add]
    unfold Element.cellVisits
    exact List.mem_map.2 ⟨e, he, by rw [decide_eq_false (by omega)]⟩

end PyNucleus.DoFMap
