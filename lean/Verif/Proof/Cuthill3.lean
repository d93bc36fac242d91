import Verif.Proof.Cuthill2

/-! # The whole search -/

namespace PyNucleus.Cuthill

open PyNucleus.Loops PyNucleus.Spec PyNucleus.CSR

theorem perm_range_lt {l : List Nat} {n : Nat} (h : l.Perm (List.range n)) (z : Nat) (hz : z < n) : l.getD z 0 < n :=
  List.mem_range.1 (h.mem_iff.1 (getD_mem' l z (by rw [h.length_eq, List.length_range]; exact hz)))

theorem getD_get (l : List Nat) (i : Nat) (h : i < l.length) : l.getD i 0 = l[i] := by
  rw [List.getD_eq_getElem?_getD, List.getElem?_eq_getElem h]; rfl

/-- Two nested `argsort` calls give an inverse permutation. -/
theorem inverse_of_argsort {keys inds rev : List Nat} (h1 : ArgSort keys inds) (h2 : ArgSort inds rev) :
    Inverse inds rev keys.length := by
  have il : inds.length = keys.length := by rw [h1.1.length_eq, List.length_range]
  have rl : rev.length = keys.length := by rw [h2.1.length_eq, List.length_range, il]
  have p1 := h1.1
  have p2 : rev.Perm (List.range keys.length) := il ▸ h2.1
  have hmap : inds = (List.range keys.length).map (fun k => inds.getD k 0) := by
    apply List.ext_getElem
    · simp [il]
    · intro i h _
      rw [List.getElem_map, List.getElem_range, getD_get _ _ h]
  have hperm : (rev.map fun k => inds.getD k 0).Perm (List.range keys.length) := by
    refine (p2.map _).trans ?_
    rw [← hmap]; exact p1
  have heq : rev.map (fun k => inds.getD k 0) = List.range keys.length := by
    refine hperm.eq_of_pairwise (le := fun a b : Nat => a ≤ b) (fun a b _ _ x y => Nat.le_antisymm x y) ?_ ?_
    · rw [List.pairwise_map, List.pairwise_iff_getElem]
      intro a b ha hb hab
      have := h2.2 a b hab (by omega)
      rw [getD_get rev a ha, getD_get rev b hb] at this
      exact this
    · exact List.pairwise_lt_range.imp (fun h => Nat.le_of_lt h)
  have right : ∀ j, j < keys.length → inds.getD (rev.getD j 0) 0 = j := by
    intro j hj
    have := congrArg (fun l => l.getD j 0) heq
    beta_reduce at this
    rw [getD_get _ j (by simp [rl, hj]), getD_get _ j (by simp [hj]), List.getElem_map, List.getElem_range] at this
    rw [getD_get rev j (by omega)]; exact this
  refine ⟨il, perm_range_lt p2, right, perm_range_lt p1, fun z hz => ?_⟩
  have ha := perm_range_lt p1 z hz
  have hb := perm_range_lt p2 _ ha
  have := right _ ha
  rw [getD_get inds z (by omega)] at *
  rw [getD_get inds _ (by omega)] at this
  exact (p1.nodup_iff.2 List.nodup_range).getElem_inj_iff.1 this

/-- Invariant of the loop over `zz`. -/
theorem outer_eq {G : Graph} (hG : Valid G) {inds rev : List Nat}
    (h1 : ArgSort (degrees G.indices G.indptr G.numRows) inds) (h2 : ArgSort inds rev) (order : List Nat)
    (ho : order.length = G.numRows) :
    let s := outer G (degrees G.indices G.indptr G.numRows) rev
      ⟨order, 0, inds.map Int.ofNat, List.replicate (maxDegree (degrees G.indices G.indptr G.numRows)) 0⟩
    s.order.Perm (List.range G.numRows) ∧
      Inv (nbrs G) (fun i => (degrees G.indices G.indptr G.numRows).getD i 0) G.numRows s.order s.order.length := by
  have dlen := (degrees_eq G hG).1
  have hI : Inverse inds rev G.numRows := dlen ▸ inverse_of_argsort h1 h2
  have hsort := h1.2
  rw [dlen] at hsort
  intro s
  have key : ∀ m, m ≤ G.numRows → let r := forRange 0 m ((⟨order, 0, inds.map Int.ofNat, List.replicate (maxDegree (degrees G.indices G.indptr G.numRows)) 0⟩ : St), false) fun (r : St × Bool) zz =>
      if r.2 then r
      else
        let s := if r.1.inds.getD zz 0 ≠ -1 then
            (search G (degrees G.indices G.indptr G.numRows) rev (r.1.inds.getD zz 0).toNat r.1).2.2
          else r.1
        (s, decide (s.N = G.numRows))
      ∃ P, Rel G inds rev P r.1 ∧
        Inv (nbrs G) (fun i => (degrees G.indices G.indptr G.numRows).getD i 0) G.numRows P P.length ∧
        (r.2 = true → r.1.N = G.numRows) ∧ (r.2 = false → ∀ z, z < m → inds.getD z 0 ∈ P) := by
    intro m
    induction m with
    | zero =>
      intro _ r
      refine ⟨[], ⟨rfl, ho, by simp, by simp [r, forRange_zero, hI.ilen], fun j hj => ?_, fun z hz => Or.inr ?_, by simp, by simp,
        by simp [r, forRange_zero]⟩, inv_nil _ _ _, fun h => absurd h (by simp [r, forRange_zero]), fun _ z hz => absurd hz (by omega)⟩
      · have hj' := hI.rlt j hj
        simp only [List.not_mem_nil, iff_false]
        show (inds.map Int.ofNat).getD (rev.getD j 0) 0 ≠ -1
        rw [List.getD_eq_getElem?_getD, List.getElem?_eq_getElem (by rw [List.length_map, hI.ilen]; exact hj'), List.getElem_map]
        simp
      · show (inds.map Int.ofNat).getD z 0 = _
        rw [List.getD_eq_getElem?_getD, List.getElem?_eq_getElem (by rw [List.length_map, hI.ilen]; exact hz), List.getElem_map,
          getD_get inds z (by rw [hI.ilen]; exact hz)]
        rfl
    | succ m ih =>
      intro hm r
      have hr : r = _ := forRange_succ _ _ _
      clear_value r
      have ihm := ih (by omega)
      revert ihm hr
      generalize (forRange 0 m _ _ : St × Bool) = t
      rintro hr ⟨P, a1, a2, a3, a4⟩
      subst hr
      by_cases hb : t.2 = true
      · simp only [hb, if_true]
        exact ⟨P, a1, a2, fun _ => a3 hb, fun h => absurd h (by simp [hb])⟩
      · simp only [hb, if_false, Bool.false_eq_true]
        have hb' : t.2 = false := by simpa using hb
        have hvis := a1.vis (inds.getD m 0) (hI.ilt m (by omega))
        rw [hI.left m (by omega)] at hvis
        by_cases hv : t.1.inds.getD m 0 = -1
        · rw [if_neg (fun x => x hv)]
          refine ⟨P, a1, a2, fun h => by simpa using h, fun _ z hz => ?_⟩
          by_cases hzm : z = m
          · subst hzm; exact hvis.1 hv
          · exact a4 hb' z (by omega)
        · rw [if_pos hv]
          have hval : t.1.inds.getD m 0 = Int.ofNat (inds.getD m 0) := (a1.val m (by omega)).resolve_left hv
          have hn : inds.getD m 0 ∉ P := fun h => hv (hvis.2 h)
          have hmin : ∀ i, i < G.numRows → i ∉ P →
              (degrees G.indices G.indptr G.numRows).getD (inds.getD m 0) 0 ≤ (degrees G.indices G.indptr G.numRows).getD i 0 := by
            intro i hi hiP
            have hri := hI.right i hi
            have hrl := hI.rlt i hi
            by_cases hlt : m < rev.getD i 0
            · have := hsort m (rev.getD i 0) hlt hrl
              rwa [hri] at this
            · by_cases he : rev.getD i 0 = m
              · rw [← he, hri]
              · exact absurd (hri ▸ a4 hb' (rev.getD i 0) (by omega)) hiP
          rw [hval]
          have hp := rel_push hI a1 (inds.getD m 0) (hI.ilt m (by omega)) hn
          have hs := inv_seed a2 (inds.getD m 0) hn hmin
          obtain ⟨_, B, l1, l2⟩ := levels_eq hG hI (G.numRows + 1) (P ++ [inds.getD m 0]) _ P.length hp hs (by omega)
          have hN := a1.N
          have e : search G (degrees G.indices G.indptr G.numRows) rev (Int.ofNat (inds.getD m 0)).toNat t.1 =
              levels G (degrees G.indices G.indptr G.numRows) rev (G.numRows + 1) P.length (P ++ [inds.getD m 0]).length
                { t.1 with inds := t.1.inds.set (rev.getD (inds.getD m 0) 0) (-1), order := t.1.order.set t.1.N (inds.getD m 0), N := t.1.N + 1 } := by
            unfold search
            simp only [Int.ofNat_eq_natCast, Int.toNat_natCast, Nat.add_sub_cancel, List.length_append, List.length_singleton, hN]
          rw [e]
          refine ⟨_, l1, l2, fun h => by simpa using h, fun _ z hz => ?_⟩
          by_cases hzm : z = m
          · subst hzm; simp
          · rw [List.append_assoc]; exact List.mem_append_left _ (a4 hb' z (by omega))
  obtain ⟨P, a1, a2, a3, a4⟩ := key G.numRows (Nat.le_refl _)
  have hs : s = (forRange 0 G.numRows ((⟨order, 0, inds.map Int.ofNat, List.replicate (maxDegree (degrees G.indices G.indptr G.numRows)) 0⟩ : St), false) fun (r : St × Bool) zz =>
      if r.2 then r
      else
        let s := if r.1.inds.getD zz 0 ≠ -1 then
            (search G (degrees G.indices G.indptr G.numRows) rev (r.1.inds.getD zz 0).toNat r.1).2.2
          else r.1
        (s, decide (s.N = G.numRows))).1 := rfl
  rw [hs]
  clear key hs s
  revert a1 a2 a3 a4
  generalize (forRange 0 G.numRows _ _ : St × Bool) = t
  intro a1 a2 a3 a4
  have hPlen : P.length = G.numRows := by
    by_cases hb : t.2 = true
    · rw [← a1.N, a3 hb]
    · have h4 := a4 (by simpa using hb)
      refine Nat.le_antisymm (nodup_le a1.nodup a1.lt) ?_
      have hsub : ∀ j ∈ List.range G.numRows, j ∈ P := by
        intro j hj
        have hj := List.mem_range.1 hj
        have := h4 _ (hI.rlt j hj)
        rwa [hI.right j hj] at this
      have := (List.Nodup.subperm List.nodup_range hsub).length_le
      rwa [List.length_range] at this
  have hP : t.1.order = P := by
    have := a1.order
    rwa [List.take_of_length_le (by rw [a1.olen, hPlen])] at this
  rw [hP]
  refine ⟨?_, a2⟩
  exact (List.Nodup.subperm a1.nodup fun j hj => List.mem_range.2 (a1.lt j hj)).perm_of_length_le (by simp [hPlen])

/-- The two loops of the reverse variant. -/
theorem reverse_eq (n : Nat) (o u : List Nat) (ho : o.length = n) (hu : u.length = n) :
    (forRange 0 n o fun o' i => o'.set i ((forRange 0 n u fun r i => r.set (n - 1 - i) (o.getD i 0)).getD i 0)) = o.reverse := by
  have h1 : ∀ m, m ≤ n → let r := forRange 0 m u fun r i => r.set (n - 1 - i) (o.getD i 0)
      r.length = n ∧ ∀ k, k < n → n - 1 - k < m → r.getD k 0 = o.getD (n - 1 - k) 0 := by
    intro m
    induction m with
    | zero => intro _ r; exact ⟨hu, fun k _ h => absurd h (by omega)⟩
    | succ m ih =>
      intro hm r
      have hr : r = _ := forRange_succ _ _ _
      clear_value r
      obtain ⟨i1, i2⟩ := ih (by omega)
      revert i1 i2 hr
      generalize (forRange 0 m u _ : List Nat) = t
      intro hr i1 i2
      subst hr
      refine ⟨by simp [i1], fun k hk hkm => ?_⟩
      rw [getD_set]
      by_cases hc : n - 1 - m = k
      · rw [if_pos ⟨hc, by omega⟩]; congr 1; omega
      · rw [if_neg (fun e => hc e.1)]; exact i2 k hk (by omega)
  obtain ⟨r1, r2⟩ := h1 n (Nat.le_refl _)
  generalize (forRange 0 n u _ : List Nat) = r at *
  have h2 : ∀ m, m ≤ n → let q := forRange 0 m o fun o' i => o'.set i (r.getD i 0)
      q.length = n ∧ ∀ k, k < m → q.getD k 0 = r.getD k 0 := by
    intro m
    induction m with
    | zero => intro _ q; exact ⟨ho, fun k h => absurd h (by omega)⟩
    | succ m ih =>
      intro hm q
      have hq : q = _ := forRange_succ _ _ _
      clear_value q
      obtain ⟨i1, i2⟩ := ih (by omega)
      revert i1 i2 hq
      generalize (forRange 0 m o _ : List Nat) = t
      intro hq i1 i2
      subst hq
      refine ⟨by simp [i1], fun k hk => ?_⟩
      rw [getD_set]
      by_cases hc : m = k
      · rw [if_pos ⟨hc, by omega⟩, hc]
      · rw [if_neg (fun e => hc e.1)]; exact i2 k (by omega)
  obtain ⟨q1, q2⟩ := h2 n (Nat.le_refl _)
  generalize (forRange 0 n o _ : List Nat) = q at *
  apply List.ext_getElem
  · simp [q1, ho]
  · intro k hk _
    have hk' : k < n := by omega
    have := q2 k hk'
    rw [r2 k hk' (by omega), getD_get q k hk, getD_get o _ (by omega)] at this
    rw [this, List.getElem_reverse]
    simp only [ho]

end PyNucleus.Cuthill
