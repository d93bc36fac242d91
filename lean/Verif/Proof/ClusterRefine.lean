import Verif.Model.ClusterRefine
import Verif.Proof.IndexSet
import Mathlib.Data.List.Perm.Basic
import Mathlib.Data.List.Nodup
import Mathlib.Tactic.Positivity
import Mathlib.Algebra.Order.Ring.Int
import Mathlib.Tactic.Ring
import Mathlib.Tactic.Linarith

/-! Refinement of clusters divides the dofs. -/

namespace PyNucleus.ClusterRefine

open PyNucleus.ClusterPairs

variable {K : Type} [Field K] [LinearOrder K]

theorem filter_not_perm (l : List Nat) (p : Nat → Bool) : (l.filter p ++ l.filter fun i => !p i).Perm l := List.filter_append_perm p l

theorem filter_four_perm (l : List Nat) (k : Nat → Nat) (hk : ∀ i, k i < 4) :
    ((l.filter fun i => k i == 0) ++ (l.filter fun i => k i == 1) ++ (l.filter fun i => k i == 2) ++ (l.filter fun i => k i == 3)).Perm l := by
  rw [List.perm_iff_count]
  intro a
  simp only [List.count_append]
  by_cases ha : a ∈ l
  · have hc : ∀ q, (l.filter fun i => k i == q).count a = if k a = q then l.count a else 0 := by
      intro q
      by_cases h : k a = q
      · rw [List.count_filter (by simp [h]), if_pos h]
      · rw [if_neg h, List.count_eq_zero]
        intro hm
        have := (List.mem_filter.1 hm).2
        simp [h] at this
    simp only [hc]
    have := hk a
    have : k a = 0 ∨ k a = 1 ∨ k a = 2 ∨ k a = 3 := by omega
    rcases this with h | h | h | h <;> simp [h]
  · have hz : ∀ q, (l.filter fun i => k i == q).count a = 0 := by
      intro q
      rw [List.count_eq_zero]
      exact fun hm => ha (List.mem_filter.1 hm).1
    simp [hz, List.count_eq_zero.2 ha]

/-- The candidate sets divide the dofs, and each is a sublist of the dofs. -/
theorem candidates_perm (P : Params K) (mixed : Bool) (dofs : List Nat) (box : Box K) :
    ((candidates P mixed dofs box).2.map Prod.fst).flatten.Perm dofs ∧ ∀ c ∈ (candidates P mixed dofs box).2, c.1.Sublist dofs := by
  have hh : ∀ sb : Box K, ((halves P dofs sb).map Prod.fst).flatten.Perm dofs ∧ ∀ c ∈ halves P dofs sb, c.1.Sublist dofs := by
    intro sb
    refine ⟨?_, ?_⟩
    · simpa [halves] using filter_not_perm dofs fun i => inBox sb (P.coords i)
    · intro c hc
      simp only [halves, List.mem_cons, List.not_mem_nil, or_false] at hc
      rcases hc with rfl | rfl <;> exact List.filter_sublist
  have hq : ∀ s0 s1 : K, ((quadrants P dofs s0 s1).map Prod.fst).flatten.Perm dofs ∧ ∀ c ∈ quadrants P dofs s0 s1, c.1.Sublist dofs := by
    intro s0 s1
    refine ⟨?_, ?_⟩
    · have := filter_four_perm dofs (fun i => (if P.coord i 0 > s0 then 1 else 0) + (if P.coord i 1 > s1 then 2 else 0)) (fun i => by split <;> split <;> omega)
      simpa [quadrants, List.range_succ] using this
    · intro c hc
      obtain ⟨q, -, rfl⟩ := List.mem_map.1 hc
      exact List.filter_sublist
  have hm : ((medians P dofs).map Prod.fst).flatten.Perm dofs ∧ ∀ c ∈ medians P dofs, c.1.Sublist dofs := by
    refine ⟨?_, ?_⟩
    · unfold medians
      dsimp only
      generalize P.med (dofs.map fun i => P.coord i 0) = m0
      have h1 := filter_not_perm dofs fun i => decide (P.coord i 0 < m0)
      have h2 : (fun i => !decide (P.coord i 0 < m0)) = fun i => decide (P.coord i 0 ≥ m0) := by
        funext i
        simp only [ge_iff_le, ← not_lt, decide_not]
      rw [h2] at h1
      refine List.Perm.trans ?_ h1
      simp only [List.map_append, List.map_cons, List.map_nil, List.flatten_append, List.flatten_cons, List.flatten_nil, List.append_nil]
      exact (filter_not_perm _ _).append (filter_not_perm _ _)
    · intro c hc
      unfold medians at hc
      dsimp only at hc
      simp only [List.mem_append, List.mem_cons, List.not_mem_nil, or_false] at hc
      rcases hc with (rfl | rfl) | (rfl | rfl) <;> exact List.filter_sublist.trans List.filter_sublist
  unfold candidates
  split
  · exact hh _
  · split
    · dsimp only
      cases P.refType
      · exact hq _ _
      · exact hq _ _
      · exact hm
    · exact hh _

/-- What `collect` returns. -/
theorem collect_split {minSize n : Nat} {idOf : Nat → Int} (slots : List (List Nat × Bool)) (k : Nat) (acc cs : List (List Nat × Int)) (h : collect minSize n idOf slots k acc = .split cs) :
    ∃ add, cs = acc ++ add ∧ (add.map Prod.fst).flatten = (slots.map Prod.fst).flatten ∧ (∀ c ∈ add, (minSize ≤ c.1.length ∧ c.1.length < n) ∧ ∃ s ∈ slots, s.1 = c.1) ∧
      add.length ≤ slots.length := by
  induction slots generalizing k acc with
  | nil => simp only [collect, Outcome.split.injEq] at h; exact ⟨[], by simp [h], rfl, by simp, by simp⟩
  | cons s rest ih =>
    obtain ⟨s, skip⟩ := s
    unfold collect at h
    split at h
    · rename_i hs
      split at h
      · obtain ⟨add, e1, e2, e3, e4⟩ := ih _ _ h
        refine ⟨(s, idOf k) :: add, by simp [e1], by simp [e2], ?_, by simpa using e4⟩
        intro c hc
        rcases List.mem_cons.1 hc with rfl | hc
        · exact ⟨hs, (s, skip), by simp, rfl⟩
        · obtain ⟨h1, t, ht, hte⟩ := e3 c hc
          exact ⟨h1, t, by simp [ht], hte⟩
      · cases h
    · split at h
      · rename_i hz
        obtain ⟨add, e1, e2, e3, e4⟩ := ih _ _ h
        refine ⟨add, e1, ?_, fun c hc => ?_, by simp; omega⟩
        · simp [e2, List.length_eq_zero_iff.1 hz.1]
        · obtain ⟨h1, t, ht, hte⟩ := e3 c hc
          exact ⟨h1, t, by simp [ht], hte⟩
      · cases h

/-- Identifiers count from the position. -/
theorem collect_ids {minSize n : Nat} {idOf : Nat → Int} (slots : List (List Nat × Bool)) (k : Nat) (acc cs : List (List Nat × Int)) (hacc : acc.map Prod.snd = (List.range acc.length).map idOf)
    (h : collect minSize n idOf slots k acc = .split cs) : cs.map Prod.snd = (List.range cs.length).map idOf := by
  induction slots generalizing k acc with
  | nil => simp only [collect, Outcome.split.injEq] at h; rw [← h]; exact hacc
  | cons s rest ih =>
    obtain ⟨s, skip⟩ := s
    unfold collect at h
    split at h
    · split at h
      · rename_i hk
        refine ih _ _ ?_ h
        simp [hacc, List.range_succ, hk]
      · cases h
    · split at h
      · exact ih _ _ hacc h
      · cases h

/-- Without empty sets that are skipped there is no invalid access. -/
theorem collect_no_error {minSize n : Nat} {idOf : Nat → Int} (slots : List (List Nat × Bool)) (acc : List (List Nat × Int)) (hs : ∀ s ∈ slots, s.1 = [] → s.2 = false) :
    collect minSize n idOf slots acc.length acc ≠ .error := by
  induction slots generalizing acc with
  | nil => simp [collect]
  | cons s rest ih =>
    obtain ⟨s, skip⟩ := s
    unfold collect
    split
    · rw [if_pos rfl]
      have := ih (acc ++ [(s, idOf acc.length)]) fun t ht => hs t (List.mem_cons_of_mem _ ht)
      simpa using this
    · split
      · rename_i hz
        have := hs (s, skip) (List.mem_cons_self ..) (List.length_eq_zero_iff.1 hz.1)
        rw [show skip = false from this] at hz
        simp at hz
      · simp

theorem sum_length (cs : List (List Nat × Int)) : (cs.map fun c => c.1.length).sum = ((cs.map Prod.fst).flatten).length := by
  induction cs with
  | nil => rfl
  | cons c cs ih => simp [ih]

/-- What `refine` does when it splits. -/
theorem refine_split (P : Params K) (mixed : Bool) (root lvl : Nat) (id : Int) (dofs : List Nat) (cs : List (List Nat × Int)) (h : refine P mixed root lvl id dofs = .split cs) :
    2 ≤ cs.length ∧ (cs.map Prod.fst).flatten.Perm dofs ∧ (∀ c ∈ cs, P.minSize ≤ c.1.length ∧ c.1.length < dofs.length ∧ c.1.Sublist dofs) ∧
      cs.map Prod.snd = (List.range cs.length).map (childId lvl id root (candidates P mixed dofs (hull P dofs)).1) ∧ cs.length ≤ (candidates P mixed dofs (hull P dofs)).2.length ∧
      lvl + 1 < (if mixed then P.maxLevelsMixed else P.maxLevels) ∧ (if mixed then P.minMixedSize else P.minSize) < dofs.length := by
  unfold refine at h
  split at h
  · cases h
  · rename_i hstop
    dsimp only at h
    cases hc : collect P.minSize dofs.length (childId lvl id root (candidates P mixed dofs (hull P dofs)).1) (candidates P mixed dofs (hull P dofs)).2 0 [] with
    | leaf => rw [hc] at h; cases h
    | error => rw [hc] at h; cases h
    | split ds =>
      rw [hc] at h
      unfold finish at h
      dsimp only at h
      split at h
      · cases h
      · rename_i hlen
        split at h
        · cases h
          obtain ⟨add, e1, e2, e3, e4⟩ := collect_split _ _ _ _ hc
          have hids := collect_ids _ _ _ _ (by simp) hc
          obtain ⟨hp, hsub⟩ := candidates_perm P mixed dofs (hull P dofs)
          simp only [List.nil_append] at e1
          subst e1
          refine ⟨by omega, ?_, ?_, hids, e4, ?_, ?_⟩
          · rw [e2]; exact hp
          · intro c hc
            obtain ⟨h1, t, ht, hte⟩ := e3 c hc
            exact ⟨h1.1, h1.2, hte ▸ hsub t ht⟩
          · cases mixed <;> simp at hstop ⊢ <;> omega
          · cases mixed <;> simp at hstop ⊢ <;> omega
        · cases h

/-- The assertion on the number of dofs never fails, so errors come from `children[k]` only. -/
theorem refine_error (P : Params K) (mixed : Bool) (root lvl : Nat) (id : Int) (dofs : List Nat) (h : refine P mixed root lvl id dofs = .error) :
    collect P.minSize dofs.length (childId lvl id root (candidates P mixed dofs (hull P dofs)).1) (candidates P mixed dofs (hull P dofs)).2 0 [] = .error := by
  unfold refine at h
  split at h
  · cases h
  · dsimp only at h
    cases hc : collect P.minSize dofs.length (childId lvl id root (candidates P mixed dofs (hull P dofs)).1) (candidates P mixed dofs (hull P dofs)).2 0 [] with
    | leaf => rw [hc] at h; cases h
    | error => rfl
    | split ds =>
      rw [hc] at h
      unfold finish at h
      dsimp only at h
      split at h
      · cases h
      · split at h
        · cases h
        · rename_i hn
          exfalso
          obtain ⟨add, e1, e2, -, -⟩ := collect_split _ _ _ _ hc
          obtain ⟨hp, -⟩ := candidates_perm P mixed dofs (hull P dofs)
          simp only [List.nil_append] at e1
          subst e1
          apply hn
          right
          rw [sum_length, e2, hp.length_eq]

/-! ## Arity and identifiers -/

/-- `maxNumChildren` in dimension `d`. -/
def arity (P : Params K) (mixed : Bool) (d : Nat) : Nat := if d = 1 then 2 else if d = 2 ∧ !mixed ∧ P.splitEveryDim then 4 else 2

theorem mergeBoxes_length (b1 b2 : Box K) (h : b1.length = b2.length) : (mergeBoxes b1 b2).length = b1.length := by
  induction b1 generalizing b2 with
  | nil => simp [mergeBoxes]
  | cons a b1 ih =>
    cases b2 with
    | nil => simp at h
    | cons b b2 => simp only [mergeBoxes, List.length_cons]; rw [ih b2 (by simpa using h)]

theorem hull_length (P : Params K) (d : Nat) (dofs : List Nat) (hne : dofs ≠ []) (hd : ∀ i ∈ dofs, (P.boxes i).length = d) : (hull P dofs).length = d := by
  cases dofs with
  | nil => simp at hne
  | cons i r =>
    unfold hull
    have : ∀ (l : List Nat) (b : Box K), b.length = d → (∀ j ∈ l, (P.boxes j).length = d) → (l.foldl (fun b j => mergeBoxes b (P.boxes j)) b).length = d := by
      intro l
      induction l with
      | nil => intro b hb _; exact hb
      | cons j l ih =>
        intro b hb hl
        refine ih _ ?_ fun k hk => hl k (List.mem_cons_of_mem _ hk)
        rw [mergeBoxes_length _ _ (by rw [hb, hl j (List.mem_cons_self ..)]), hb]
    exact this r _ (hd i (List.mem_cons_self ..)) fun j hj => hd j (List.mem_cons_of_mem _ hj)

theorem candidates_arity (P : Params K) (mixed : Bool) (dofs : List Nat) (box : Box K) :
    (candidates P mixed dofs box).1 = arity P mixed box.length ∧ (candidates P mixed dofs box).2.length = arity P mixed box.length := by
  unfold candidates arity
  split
  · exact ⟨rfl, rfl⟩
  · split
    · refine ⟨rfl, ?_⟩
      dsimp only
      cases P.refType
      · simp [quadrants]
      · simp [quadrants]
      · simp [medians]
    · exact ⟨rfl, rfl⟩

/-- `1 + M + … + M^(n-1)` -/
def geom (M : Nat) : Nat → Int
  | 0 => 0
  | n + 1 => geom M n + (M : Int) ^ n

theorem geom_mul (M n : Nat) : ((M : Int) - 1) * geom M n = (M : Int) ^ n - 1 := by
  induction n with
  | zero => simp [geom]
  | succ n ih => rw [geom, mul_add, ih, pow_succ]; ring

theorem geom_div (root M n : Nat) (hM : 2 ≤ M) : (root : Int) * ((M : Int) ^ n - 1) / ((M : Int) - 1) = root * geom M n := by
  rw [← geom_mul, show (root : Int) * (((M : Int) - 1) * geom M n) = (root * geom M n) * ((M : Int) - 1) by ring]
  exact Int.mul_ediv_cancel _ (by omega)

/-- Identifier of node number `v` on level `lvl`. -/
def nid (root M lvl : Nat) (v : Nat) : Int := root * geom M (lvl - 1) + 1 + v

theorem childId_eq (root M lvl v k : Nat) (hM : 2 ≤ M) (hl : 1 ≤ lvl) : childId lvl (nid root M lvl v) root M k = nid root M (lvl + 1) (M * v + k) := by
  unfold childId nid
  rw [if_pos (by omega), geom_div _ _ _ hM, geom_div _ _ _ hM]
  push_cast
  ring

theorem geom_mono (M : Nat) (hM : 2 ≤ M) : ∀ a b, a ≤ b → geom M a ≤ geom M b := by
  intro a b h
  induction h with
  | refl => exact le_rfl
  | @step m _ ih =>
    refine ih.trans ?_
    rw [geom]
    have : (0 : Int) ≤ (M : Int) ^ m := pow_nonneg (by omega) m
    linarith

theorem nid_lt (root M a b v w : Nat) (hM : 2 ≤ M) (ha : 1 ≤ a) (hab : a < b) (hv : v < root * M ^ (a - 1)) : nid root M a v < nid root M b w := by
  unfold nid
  have h1 : geom M a ≤ geom M (b - 1) := geom_mono M hM _ _ (by omega)
  have h2 : geom M a = geom M (a - 1) + (M : Int) ^ (a - 1) := by
    have : a = a - 1 + 1 := by omega
    conv => lhs; rw [this]
    rfl
  have h3 : (root : Int) * geom M a ≤ root * geom M (b - 1) := mul_le_mul_of_nonneg_left h1 (by positivity)
  have h4 : (v : Int) < root * (M : Int) ^ (a - 1) := by exact_mod_cast hv
  have h5 : (0 : Int) ≤ w := by positivity
  rw [h2, mul_add] at h3
  linarith

theorem nid_inj (root M a b v w : Nat) (hM : 2 ≤ M) (ha : 1 ≤ a) (hb : 1 ≤ b) (hv : v < root * M ^ (a - 1)) (hw : w < root * M ^ (b - 1)) (h : nid root M a v = nid root M b w) : a = b ∧ v = w := by
  rcases Nat.lt_trichotomy a b with hab | hab | hab
  · have := nid_lt root M a b v w hM ha hab hv; omega
  · subst hab; unfold nid at h; exact ⟨rfl, by omega⟩
  · have := nid_lt root M b a w v hM hb hab hw; omega

/-- The identifiers of a tree whose root is node `v` on level `lvl` belong to descendants of that node, and are distinct. -/
def IdsOk (root M lvl : Nat) (v : Nat) (t : Tree) : Prop :=
  (∀ x ∈ t.ids, ∃ d w, v * M ^ d ≤ w ∧ w < (v + 1) * M ^ d ∧ x = nid root M (lvl + d) w) ∧ t.ids.Nodup

theorem idsList_eq (ts : List Tree) : idsList ts = ts.flatMap Tree.ids := by
  induction ts with
  | nil => rfl
  | cons t ts ih => simp [idsList, ih]

theorem range_bound (root M lvl v d w : Nat) (hl : 1 ≤ lvl) (hv : v < root * M ^ (lvl - 1)) (hw : w < (v + 1) * M ^ d) : w < root * M ^ (lvl + d - 1) := by
  have h1 : (v + 1) * M ^ d ≤ root * M ^ (lvl - 1) * M ^ d := Nat.mul_le_mul_right _ hv
  have h2 : root * M ^ (lvl - 1) * M ^ d = root * M ^ (lvl + d - 1) := by
    rw [Nat.mul_assoc, ← pow_add]
    congr 2
    omega
  omega

theorem idsList_ok (root M lvl : Nat) (hM : 2 ≤ M) (hl : 1 ≤ lvl) (ts : List Tree) (vs : List Nat) (hvs : vs.Nodup) (hv : ∀ v ∈ vs, v < root * M ^ (lvl - 1))
    (h : List.Forall₂ (fun v t => IdsOk root M lvl v t) vs ts) :
    (∀ x ∈ idsList ts, ∃ v ∈ vs, ∃ d w, v * M ^ d ≤ w ∧ w < (v + 1) * M ^ d ∧ x = nid root M (lvl + d) w) ∧ (idsList ts).Nodup := by
  induction h with
  | nil => simp [idsList]
  | @cons v t vs ts h1 _ ih =>
    obtain ⟨i1, i2⟩ := ih (List.nodup_cons.1 hvs).2 fun u hu => hv u (List.mem_cons_of_mem _ hu)
    refine ⟨?_, ?_⟩
    · intro x hx
      simp only [idsList, List.mem_append] at hx
      rcases hx with hx | hx
      · obtain ⟨d, w, hw⟩ := h1.1 x hx
        exact ⟨v, List.mem_cons_self .., d, w, hw⟩
      · obtain ⟨u, hu, hw⟩ := i1 x hx
        exact ⟨u, List.mem_cons_of_mem _ hu, hw⟩
    · simp only [idsList]
      rw [List.nodup_append]
      refine ⟨h1.2, i2, ?_⟩
      rintro x hx y hy rfl
      obtain ⟨d, w, hw1, hw2, e1⟩ := h1.1 x hx
      obtain ⟨u, hu, d', w', hw1', hw2', e2⟩ := i1 x hy
      have hb1 := range_bound root M lvl v d w hl (hv v (List.mem_cons_self ..)) hw2
      have hb2 := range_bound root M lvl u d' w' hl (hv u (List.mem_cons_of_mem _ hu)) hw2'
      obtain ⟨hd, hw⟩ := nid_inj root M _ _ _ _ hM (by omega) (by omega) hb1 hb2 (e1.symm.trans e2)
      have hdd : d = d' := by omega
      subst hdd
      subst hw
      have h1 : v < u + 1 := by
        by_contra hc
        have := Nat.mul_le_mul_right (M ^ d) (not_lt.1 hc)
        omega
      have h2 : u < v + 1 := by
        by_contra hc
        have := Nat.mul_le_mul_right (M ^ d) (not_lt.1 hc)
        omega
      have : u = v := by omega
      subst this
      exact (List.nodup_cons.1 hvs).1 hu

theorem mapM_forall₂ {α β : Type} (f : α → Option β) (l : List α) (r : List β) (h : l.mapM f = some r) : List.Forall₂ (fun a b => f a = some b) l r := by
  induction l generalizing r with
  | nil => simp at h; subst h; exact .nil
  | cons a l ih =>
    rw [List.mapM_cons] at h
    cases ha : f a with
    | none => simp [ha] at h
    | some b =>
      cases hl : l.mapM f with
      | none => simp [ha, hl] at h
      | some bs =>
        simp only [ha, hl, Option.pure_def, Option.bind_eq_bind, Option.bind_some, Option.some.injEq] at h
        subst h
        exact .cons ha (ih bs hl)

theorem forall₂_ids {P : Params K} {mixed : Bool} {root M rem lvl : Nat} {dofs : List Nat} (cs : List (List Nat × Int)) (ts : List Tree) (f : Nat → Nat) (s : Nat)
    (hids : cs.map Prod.snd = (List.range' s cs.length).map fun k => nid root M lvl (f k))
    (hsub : ∀ c ∈ cs, c.1.Sublist dofs)
    (hrec : ∀ v ds t, ds.Sublist dofs → (∃ k, s ≤ k ∧ k < s + cs.length ∧ v = f k) → build P mixed root rem lvl (nid root M lvl v) ds = some t → IdsOk root M lvl v t)
    (h : List.Forall₂ (fun c t => build P mixed root rem lvl c.2 c.1 = some t) cs ts) :
    List.Forall₂ (fun v t => IdsOk root M lvl v t) ((List.range' s cs.length).map f) ts := by
  induction h generalizing s with
  | nil => exact .nil
  | @cons c t cs ts h1 _ ih =>
    simp only [List.length_cons, List.range'_succ, List.map_cons, List.cons.injEq] at hids ⊢
    refine .cons ?_ ?_
    · rw [hids.1] at h1
      exact hrec _ _ _ (hsub c (List.mem_cons_self ..)) ⟨s, le_rfl, by simp, rfl⟩ h1
    · refine ih (s + 1) hids.2 (fun c hc => hsub c (List.mem_cons_of_mem _ hc)) ?_
      intro v ds t hds hk
      obtain ⟨k, h1, h2, h3⟩ := hk
      exact hrec v ds t hds ⟨k, by omega, by simp only [List.length_cons]; omega, h3⟩

theorem build_ids (P : Params K) (mixed : Bool) (root dim : Nat) (all : List Nat) (hd : ∀ i ∈ all, (P.boxes i).length = dim) (rem lvl v : Nat) (hl : 1 ≤ lvl) (dofs : List Nat) (hsub : dofs.Sublist all)
    (hv : v < root * arity P mixed dim ^ (lvl - 1)) (t : Tree) (h : build P mixed root rem lvl (nid root (arity P mixed dim) lvl v) dofs = some t) :
    IdsOk root (arity P mixed dim) lvl v t := by
  have hM : 2 ≤ arity P mixed dim := by unfold arity; split <;> [skip; split] <;> omega
  generalize hMe : arity P mixed dim = M at *
  have hself : ∃ d w, v * M ^ d ≤ w ∧ w < (v + 1) * M ^ d ∧ nid root M lvl v = nid root M (lvl + d) w := ⟨0, v, by simp, by simp, rfl⟩
  induction rem generalizing lvl v dofs t with
  | zero =>
    simp only [build, Option.some.injEq] at h
    subst h
    exact ⟨by simpa [Tree.ids] using hself, by simp [Tree.ids]⟩
  | succ rem ih =>
    unfold build at h
    split at h
    · cases h
      exact ⟨by simpa [Tree.ids] using hself, by simp [Tree.ids]⟩
    · cases h
    · rename_i cs hcs
      cases hm : cs.mapM fun c => build P mixed root rem (lvl + 1) c.2 c.1 with
      | none => rw [hm] at h; cases h
      | some ts =>
        rw [hm] at h
        cases h
        obtain ⟨h2, hp, hc, hids, hlen, -, -⟩ := refine_split _ _ _ _ _ _ _ hcs
        have hne : dofs ≠ [] := by
          intro he
          have hcc := hc (cs[0]'(by omega)) (List.getElem_mem _)
          rw [he] at hcc
          exact absurd hcc.2.1 (by simp)
        have har := candidates_arity P mixed dofs (hull P dofs)
        rw [hull_length P dim dofs hne (fun i hi => hd i (hsub.subset hi)), hMe] at har
        rw [har.1] at hids
        rw [har.2] at hlen
        have hids' : cs.map Prod.snd = (List.range' 0 cs.length).map fun k => nid root M (lvl + 1) (M * v + k) := by
          rw [hids, List.range_eq_range']
          exact List.map_congr_left fun k _ => childId_eq root M lvl v k hM hl
        have hbound : ∀ k < cs.length, M * v + k < root * M ^ (lvl + 1 - 1) := by
          intro k hk
          have h3 : M * v + k < M * (v + 1) := by rw [Nat.mul_add]; omega
          have h4 : M * (v + 1) ≤ M * (root * M ^ (lvl - 1)) := Nat.mul_le_mul_left _ hv
          have h5 : M * (root * M ^ (lvl - 1)) = root * M ^ (lvl + 1 - 1) := by
            have : lvl + 1 - 1 = lvl - 1 + 1 := by omega
            rw [this, pow_succ]
            ring
          omega
        have hF := forall₂_ids (P := P) (mixed := mixed) (rem := rem) (dofs := dofs) cs ts (fun k => M * v + k) 0 hids' (fun c hc' => (hc c hc').2.2)
          (fun u ds t hds hk hb => by
            obtain ⟨k, -, hk2, rfl⟩ := hk
            refine ih (lvl + 1) (M * v + k) (by omega) ds (hds.trans hsub) t (hbound k (by omega)) hb ⟨0, M * v + k, by simp, by simp, rfl⟩)
          (mapM_forall₂ _ _ _ hm)
        obtain ⟨i1, i2⟩ := idsList_ok root M (lvl + 1) hM (by omega) ts _ (by
            refine List.Nodup.map ?_ List.nodup_range'
            intro a b hab
            dsimp only at hab
            omega)
          (by
            intro u hu
            obtain ⟨k, hk, rfl⟩ := List.mem_map.1 hu
            rw [List.mem_range'_1] at hk
            exact hbound k (by omega)) hF
        have hchild : ∀ x ∈ idsList ts, ∃ d w, 1 ≤ d ∧ v * M ^ d ≤ w ∧ w < (v + 1) * M ^ d ∧ x = nid root M (lvl + d) w := by
          intro x hx
          obtain ⟨u, hu, d, w, hw1, hw2, hx⟩ := i1 x hx
          obtain ⟨k, hk, rfl⟩ := List.mem_map.1 hu
          rw [List.mem_range'_1] at hk
          refine ⟨d + 1, w, by omega, ?_, ?_, by rw [hx]; congr 1; omega⟩
          · refine le_trans ?_ hw1
            rw [pow_succ, show v * (M ^ d * M) = M * v * M ^ d by ring]
            exact Nat.mul_le_mul_right _ (by omega)
          · refine lt_of_lt_of_le hw2 ?_
            rw [pow_succ, show (v + 1) * (M ^ d * M) = M * (v + 1) * M ^ d by ring]
            refine Nat.mul_le_mul_right _ ?_
            rw [Nat.mul_add]
            omega
        refine ⟨?_, ?_⟩
        · intro x hx
          simp only [Tree.ids, List.mem_cons] at hx
          rcases hx with rfl | hx
          · exact hself
          · obtain ⟨d, w, -, h⟩ := hchild x hx
            exact ⟨d, w, h⟩
        · simp only [Tree.ids, List.nodup_cons]
          refine ⟨?_, i2⟩
          intro hx
          obtain ⟨d, w, hd1, hw1, hw2, hx⟩ := hchild _ hx
          have := nid_lt root M lvl (lvl + d) v w hM hl (by omega) hv
          omega

end PyNucleus.ClusterRefine
