import Verif.Proof.ExtendOverlap
import Verif.Props.C88
import Mathlib.Algebra.Order.Ring.Rat

/-!
# C92: extension of subdomains by cells of their neighbours

Full statement: cells and vertices that are sent to a neighbour arrive at their places; both sides list the cells of their overlap in the same order; vertices that arrive
from several neighbours are entered once; the new boundary vertices, edges, and faces are those of the extended mesh that were not on the boundary before.
-/

namespace PyNucleus.Props.C92

open PyNucleus.ExtendOverlap PyNucleus.SurfaceEntities PyNucleus.SimplexMapper PyNucleus.SharedMesh

/-! ### vertices -/

/-- Translated data can be translated back, numbers of interface vertices are kept, and each other vertex gets one new number. -/
theorem to_overlap (vs data : List Nat) : let r := (VMap.build vs).toOverlap data
    r.1.iface = vs.length ∧ r.2.map r.1.overlap2local = data.map some ∧ (∀ k, k < vs.length → r.1.overlap2local k = vs[k]?) ∧ (∀ k, k < r.1.num ↔ (r.1.overlap2local k).isSome) ∧
    (∀ k v, vs.length ≤ k → r.1.overlap2local k = some v → v ∈ data ∧ v ∉ vs) ∧
    ∀ k l v, vs.length ≤ k → vs.length ≤ l → r.1.overlap2local k = some v → r.1.overlap2local l = some v → k = l := by
  obtain ⟨h1, h2, h3, h4⟩ := VMap.build_spec vs
  obtain ⟨a1, a2, a3, a4, a5, a6, a7⟩ := VMap.toOverlap_spec data _ h1
  rw [h3] at a3 a5 a7
  refine ⟨a2.trans h2, a4, fun k hk => (a5 k hk).trans (h4 k), a1.dom, fun k v hk hv => ?_, fun k l v hk hl hkv hlv => ?_⟩
  · obtain ⟨b1, b2, _⟩ := a7 k v hk hv
    refine ⟨b1, fun hm => ?_⟩
    obtain ⟨i, hi, e⟩ := List.getElem_of_mem hm
    have := h1.known i v (by rw [h4, List.getElem?_eq_getElem hi, e])
    rw [b2] at this
    cases this
  · have e1 := (a7 k v hk hkv).2.2
    have e2 := (a7 l v hl hlv).2.2
    rw [e1] at e2
    exact Option.some.inj e2

section
variable {P : Type}

theorem mapM_some {α β : Type} (f : α → Option β) (l : List α) (h : ∀ a ∈ l, (f a).isSome) : ∃ r, l.mapM f = some r ∧ r.map some = l.map f := by
  induction l with
  | nil => exact ⟨[], rfl, rfl⟩
  | cons a t ih =>
    obtain ⟨r, h1, h2⟩ := ih fun b hb => h b (List.mem_cons_of_mem _ hb)
    obtain ⟨b, hb⟩ := Option.isSome_iff_exists.1 (h a (by simp))
    refine ⟨b :: r, ?_, by rw [List.map_cons, List.map_cons, h2, hb]⟩
    rw [List.mapM_cons, hb, h1]
    rfl

/-- Vertices and numbers that one side sends arrive at the other side at their places, whatever the other side has sent and received before, in any order.  `IA`, `IB` are the vertices of
the interface as seen from both sides, `data` the vertices of all cells that are sent. -/
theorem exchange (near : P → P → Bool) (shared : Nat → Option Nat) (placesA : List P) (IA IB : List Nat) (data : List Nat) (hdata : ∀ v ∈ data, v < placesA.length)
    (M : Manager P) (hM : M.WF) (s : Nat) (hinv : (M.maps s).Inv) (hlen : IB.length = IA.length) (hif : (M.maps s).iface = IB.length) (hle : (M.maps s).iface ≤ (M.maps s).num)
    (hB : ∀ k, k < IB.length → (M.maps s).overlap2local k = IB[k]?)
    (hAB : ∀ k a b : Nat, IA[k]? = some a → IB[k]? = some b → ∃ p, placesA[a]? = some p ∧ M.place b = some p) :
    ∃ sv, toSend ((VMap.build IA).toOverlap data).1 = some sv ∧ (∀ v ∈ sv, v < placesA.length) ∧
    ∀ ps : List P, ps.map some = sv.map (fun v => placesA[v]?) → ∃ ls, ((M.receive near shared s ps).maps s).toLocal (M.offset s) ((VMap.build IA).toOverlap data).2 = some ls ∧
      ls.length = data.length ∧ ∀ j v l : Nat, data[j]? = some v → ls[j]? = some l → ∃ p q, placesA[v]? = some p ∧ (M.receive near shared s ps).place l = some q ∧ (q = p ∨ near q p) := by
  obtain ⟨r1, r2, r3, r4, r5, r6⟩ := to_overlap IA data
  have hnum : IA.length ≤ ((VMap.build IA).toOverlap data).1.num := by
    obtain ⟨h1, _, h3, _⟩ := VMap.build_spec IA
    have := (VMap.toOverlap_spec data _ h1).2.2.1
    omega
  generalize (VMap.build IA).toOverlap data = r at r1 r2 r3 r4 r5 r6 hnum ⊢
  obtain ⟨sv, s1, s2⟩ := mapM_some r.1.overlap2local (List.range' r.1.iface (r.1.num - r.1.iface)) fun k hk => by
    rw [List.mem_range'_1] at hk
    exact (r4 k).1 (by omega)
  have hsvlen : sv.length = r.1.num - r.1.iface := by
    have := congrArg List.length s2
    simpa using this
  have hsv : ∀ i, i < sv.length → sv[i]? = r.1.overlap2local (IA.length + i) := by
    intro i hi
    have h := congrArg (fun l => l[i]?) s2
    rw [List.getElem?_map, List.getElem?_map, List.getElem?_range' (by omega), List.getElem?_eq_getElem hi] at h
    simp only [Option.map_some, Option.some.injEq] at h
    rw [List.getElem?_eq_getElem hi, h, r1]
    congr 1
    omega
  refine ⟨sv, s1, ?_, fun ps hps => ?_⟩
  · intro v hv
    obtain ⟨i, hi, e⟩ := List.getElem_of_mem hv
    have h := hsv i hi
    rw [List.getElem?_eq_getElem hi, e] at h
    exact hdata v (r5 _ v (by omega) h.symm).1
  · have hpslen : ps.length = sv.length := by
      have := congrArg List.length hps
      simpa using this
    obtain ⟨g1, g2, g3⟩ := Manager.receive_fold near shared s ((List.range' (M.maps s).iface ps.length).zip ps) M hM
    have hrec : M.receive near shared s ps = ((List.range' (M.maps s).iface ps.length).zip ps).foldl (Manager.receive1 near shared s) M := rfl
    rw [← hrec] at g1 g2 g3
    generalize M.receive near shared s ps = M' at g1 g2 g3 ⊢
    have hoff : (M.maps s).num = (M.maps s).iface + M.offset s := by unfold Manager.offset; omega
    -- each number that is sent stands for a vertex at the right place
    have hone : ∀ k v, k < r.1.num → r.1.overlap2local k = some v → ∃ l, (if k < (M'.maps s).iface then (M'.maps s).overlap2local k else (M'.maps s).overlap2local (k + M.offset s)) = some l ∧
        ∃ p q, placesA[v]? = some p ∧ M'.place l = some q ∧ (q = p ∨ near q p) := by
      intro k v hk hkv
      rw [g1.iface, hif]
      by_cases hki : k < IB.length
      · rw [if_pos hki, g1.old k (by omega), hB k hki]
        rw [r3 k (by omega)] at hkv
        obtain ⟨p, p1, p2⟩ := hAB k v _ hkv (List.getElem?_eq_getElem hki)
        exact ⟨_, List.getElem?_eq_getElem hki, p, p, p1, g1.place _ _ p2, Or.inl rfl⟩
      · rw [if_neg hki]
        obtain ⟨i, rfl⟩ : ∃ i, k = IA.length + i := ⟨k - IA.length, by omega⟩
        have hi : i < sv.length := by omega
        have hp : ∃ p, ps[i]? = some p ∧ placesA[v]? = some p := by
          have h := congrArg (fun l => l[i]?) hps
          rw [List.getElem?_map, List.getElem?_map, hsv i hi, hkv, List.getElem?_eq_getElem (show i < ps.length by omega)] at h
          simp only [Option.map_some, Option.some.injEq] at h
          exact ⟨ps[i], List.getElem?_eq_getElem (by omega), h.symm⟩
        obtain ⟨p, p1, p2⟩ := hp
        obtain ⟨l, q, q1, q2, q3⟩ := g3 i ((M.maps s).iface + i, p) (by
          rw [List.getElem?_zip_eq_some]
          exact ⟨by rw [List.getElem?_range' (by omega)]; simp, p1⟩)
        refine ⟨l, ?_, p, q, p2, q2, q3⟩
        rw [← q1]
        congr 1
        omega
    have hk : ∀ (j : Nat) (k : Nat), r.2[j]? = some k → ∃ v, data[j]? = some v ∧ k < r.1.num ∧ r.1.overlap2local k = some v := by
      intro j k hj
      have h := congrArg (fun l => l[j]?) r2
      rw [List.getElem?_map, List.getElem?_map, hj] at h
      cases hd : data[j]? with
      | none => rw [hd] at h; cases h
      | some v =>
        rw [hd] at h
        simp only [Option.map_some, Option.some.injEq] at h
        exact ⟨v, rfl, (r4 k).2 (by rw [h]; rfl), h⟩
    obtain ⟨ls, l1, l2⟩ := mapM_some (fun i => if i < (M'.maps s).iface then (M'.maps s).overlap2local i else (M'.maps s).overlap2local (i + M.offset s)) r.2 fun k hkm => by
      obtain ⟨j, hj, e⟩ := List.getElem_of_mem hkm
      obtain ⟨v, _, v2, v3⟩ := hk j k (by rw [List.getElem?_eq_getElem hj, e])
      obtain ⟨l, e1, _⟩ := hone k v v2 v3
      rw [e1]
      rfl
    have hrl : r.2.length = data.length := by
      have := congrArg List.length r2
      simpa using this
    have hll : ls.length = r.2.length := by
      have := congrArg List.length l2
      simpa using this
    refine ⟨ls, l1, by omega, fun j v l hj hl => ?_⟩
    have hjr : j < r.2.length := by rw [hrl]; exact (List.getElem?_eq_some_iff.1 hj).1
    obtain ⟨v', v1, v2, v3⟩ := hk j r.2[j] (List.getElem?_eq_getElem hjr)
    rw [hj] at v1
    cases v1
    obtain ⟨l', e1, p, q, e2, e3, e4⟩ := hone _ v v2 v3
    have h := congrArg (fun l => l[j]?) l2
    rw [List.getElem?_map, List.getElem?_map, hl, List.getElem?_eq_getElem hjr] at h
    simp only [Option.map_some, Option.some.injEq] at h
    rw [e1] at h
    cases h
    exact ⟨p, q, e2, e3, e4⟩

/-- What arrives from one neighbour changes neither the numbers for other neighbours nor places. -/
theorem receive_keeps (near : P → P → Bool) (shared : Nat → Option Nat) (M : Manager P) (hM : M.WF) (s : Nat) (ps : List P) :
    (M.receive near shared s ps).WF ∧ (∀ t, t ≠ s → (M.receive near shared s ps).maps t = M.maps t) ∧ ∀ l q, M.place l = some q → (M.receive near shared s ps).place l = some q := by
  have g1 := (Manager.receive_fold near shared s ((List.range' (M.maps s).iface ps.length).zip ps) M hM).1
  exact ⟨g1.wf, g1.others, g1.place⟩

/-- Contract of `np.unique`. -/
structure IsUnique (vs : List P) (idx inverse : List Nat) : Prop where
  idx_lt : ∀ i ∈ idx, i < vs.length
  once : (idx.map fun i => vs[i]?).Nodup
  len : inverse.length = vs.length
  inv : ∀ i, i < vs.length → ∃ k, idx[inverse.getD i 0]? = some k ∧ vs[k]? = vs[i]?

/-- `removeDuplicateVertices` and `writeOverlapToMesh`: no new vertex twice, and all numbers stand for the same places as before. -/
theorem duplicates (M : Manager P) (idx inverse : List Nat) (hu : IsUnique M.newVertices idx inverse) :
    let r := removeDuplicates M.places.length M.newVertices idx inverse
    r.1.Nodup ∧ (∀ p, p ∈ r.1 ↔ p ∈ M.newVertices) ∧ (∀ l, l < M.places.length → r.2 l = l) ∧
    ∀ l, l < M.places.length + M.newVertices.length → (M.places ++ r.1)[r.2 l]? = M.place l := by
  have hmap : (idx.filterMap fun i => M.newVertices[i]?).map some = idx.map fun i => M.newVertices[i]? := by
    have := hu.idx_lt
    clear hu
    induction idx with
    | nil => rfl
    | cons a t ih =>
      have h := this a (by simp)
      rw [List.filterMap_cons, List.getElem?_eq_getElem h]
      dsimp only
      rw [List.map_cons, List.map_cons, ih fun i hi => this i (List.mem_cons_of_mem _ hi), List.getElem?_eq_getElem h]
  have hget : ∀ j : Nat, (idx.filterMap fun i => M.newVertices[i]?)[j]? = (idx[j]?).bind fun k => M.newVertices[k]? := by
    intro j
    have h : ((idx.filterMap fun i => M.newVertices[i]?).map some)[j]? = (idx.map fun i => M.newVertices[i]?)[j]? := by rw [hmap]
    rw [List.getElem?_map, List.getElem?_map] at h
    cases hj : idx[j]? with
    | none =>
      rw [hj] at h
      cases hx : (idx.filterMap fun i => M.newVertices[i]?)[j]? with
      | none => rfl
      | some x => rw [hx] at h; cases h
    | some k =>
      rw [hj] at h
      cases hx : (idx.filterMap fun i => M.newVertices[i]?)[j]? with
      | none => rw [hx] at h; cases h
      | some x =>
        rw [hx] at h
        simp only [Option.map_some, Option.some.injEq] at h
        exact h
  refine ⟨?_, fun p => ?_, fun l hl => if_pos hl, fun l hl => ?_⟩
  · have := hu.once
    rw [← hmap] at this
    exact List.Nodup.of_map _ this
  · constructor
    · intro hp
      obtain ⟨i, _, e⟩ := List.mem_filterMap.1 hp
      exact List.mem_of_getElem? e
    · intro hp
      obtain ⟨i, hi, e⟩ := List.getElem_of_mem hp
      obtain ⟨k, k1, k2⟩ := hu.inv i hi
      have := hget (inverse.getD i 0)
      rw [k1, Option.bind_some, k2, List.getElem?_eq_getElem hi, e] at this
      exact List.mem_of_getElem? this
  · show (M.places ++ idx.filterMap fun i => M.newVertices[i]?)[if l < M.places.length then l else M.places.length + inverse.getD (l - M.places.length) 0]? = _
    unfold Manager.place
    by_cases h : l < M.places.length
    · rw [if_pos h, if_neg (by omega), List.getElem?_append_left h]
    · rw [if_neg h, if_pos (by omega), List.getElem?_append_right (by omega), Nat.add_sub_cancel_left, hget]
      obtain ⟨k, k1, k2⟩ := hu.inv (l - M.places.length) (by omega)
      rw [k1, Option.bind_some, k2]

end

/-! ### cells -/

/-- Both sides of an overlap list the same cells in the same order: those of both sides, and those that a third subdomain has sent to both. -/
theorem same_cells (nc : Nat → Nat) (nbrs : Nat → List Nat) (sent : Nat → Nat → List Nat) (hlt : ∀ s t, ∀ c ∈ sent s t, c < nc s) (hnb : ∀ s, (nbrs s).Nodup)
    (hsd : ∀ s t, (sent s t).Nodup) (hsym : ∀ s t, s ∈ nbrs t ↔ t ∈ nbrs s) (a b : Nat) (hab : a ≠ b) :
    ((overlapCells nc nbrs sent a).nos b).map (label nc nbrs sent a) = ((overlapCells nc nbrs sent b).nos a).map (label nc nbrs sent b) := by
  rw [overlap_labels nc nbrs sent a (hlt a) hnb hsd, overlap_labels nc nbrs sent b (hlt b) hnb hsd]
  congr 1
  · have hs : b ∈ nbrs a ↔ a ∈ nbrs b := hsym b a
    by_cases h : b ∈ nbrs a
    · rw [if_pos h, if_pos (hs.1 h)]
      unfold parts
      rcases Nat.lt_or_gt_of_ne hab with h | h
      · rw [if_pos h, if_neg (by omega)]
      · rw [if_neg (by omega), if_pos h]
    · rw [if_neg h, if_neg fun h' => h (hs.2 h')]
  · have hswap : ∀ s, ((sharedCellsToSend (nbrs s) (sent s) a).filter fun p => decide (p.2 = b)).map (fun p => (s, (sent s a).getD p.1 0)) =
        ((sharedCellsToSend (nbrs s) (sent s) b).filter fun p => decide (p.2 = a)).map fun p => (s, (sent s b).getD p.1 0) := by
      intro s
      have h1 := congrArg (List.map fun c => (s, c)) (toSend_spec (nbrs s) (hnb s) (sent s) (hsd s) a b hab)
      have h2 := congrArg (List.map fun c => (s, c)) (toSend_spec (nbrs s) (hnb s) (sent s) (hsd s) b a (Ne.symm hab))
      rw [List.map_map] at h1 h2
      refine h1.trans (Eq.trans ?_ h2.symm)
      congr 3
      funext p
      simp only [and_comm]
    have hfil : ∀ (x y : Nat), x ≠ y → ∀ l : List Nat, (l.flatMap fun s => ((sharedCellsToSend (nbrs s) (sent s) x).filter fun p => decide (p.2 = y)).map fun p => (s, (sent s x).getD p.1 0)) =
        (l.filter fun s => decide (s ∈ nbrs y)).flatMap fun s => ((sharedCellsToSend (nbrs s) (sent s) x).filter fun p => decide (p.2 = y)).map fun p => (s, (sent s x).getD p.1 0) := by
      intro x y hxy l
      induction l with
      | nil => rfl
      | cons s l ih =>
        rw [List.flatMap_cons, List.filter_cons, ih]
        by_cases h : s ∈ nbrs y
        · rw [if_pos (by simpa using h), List.flatMap_cons]
        · rw [if_neg (by simpa using h), toSend_nbrs (nbrs s) (hnb s) (sent s) (hsd s) x y hxy fun h' => h ((hsym s y).2 h'.2)]
          rfl
    rw [hfil a b hab, hfil b a (Ne.symm hab)]
    have hsort : ∀ x : Nat, ((nbrs x).insertionSort (· ≤ ·)).Pairwise (· < ·) := by
      intro x
      have h2 : ((nbrs x).insertionSort (· ≤ ·)).Nodup := (List.perm_insertionSort _ _).nodup_iff.2 (hnb x)
      exact (List.Pairwise.and (List.pairwise_insertionSort (· ≤ ·) (nbrs x)) h2).imp fun h => lt_of_le_of_ne h.1 h.2
    have heq : (((nbrs a).insertionSort (· ≤ ·)).filter fun s => decide (s ∈ nbrs b)) = (((nbrs b).insertionSort (· ≤ ·)).filter fun s => decide (s ∈ nbrs a)) := by
      apply List.Perm.eq_of_pairwise (le := (· < ·)) (fun x y _ _ h1 h2 => absurd h1 (by omega)) ((hsort a).filter _) ((hsort b).filter _)
      rw [List.perm_ext_iff_of_nodup ((((hsort a).imp fun h => Nat.ne_of_lt h)).filter _) ((((hsort b).imp fun h => Nat.ne_of_lt h)).filter _)]
      intro s
      simp [and_comm]
    rw [heq]
    exact List.flatMap_congr fun s _ => hswap s

/-- With their places, cells of an overlap are the cells of their subdomains: cell number `nc + k` is the `k`-th that arrived. -/
theorem label_received (nc : Nat → Nat) (nbrs : Nat → List Nat) (sent : Nat → Nat → List Nat) (me : Nat) :
    (∀ n, n < nc me → label nc nbrs sent me n = (me, n)) ∧ ∀ k, label nc nbrs sent me (nc me + k) = (((nbrs me).flatMap fun s => (sent s me).map fun c => (s, c)).getD k (0, 0)) := by
  refine ⟨fun n hn => if_pos hn, fun k => ?_⟩
  unfold label
  rw [if_neg (by omega), Nat.add_sub_cancel_left]
  rfl

/-! ### the new boundary -/

open PyNucleus.Props.C88

theorem boundary_append (a b : Nat) : (Odd (a + b) ∧ ¬ Odd a) ↔ (Odd b ∧ ¬ Odd a) := by
  rw [Nat.odd_iff, Nat.odd_iff, Nat.odd_iff]; omega

/-- Vertices of the boundary of the extended mesh that were not on the boundary before. -/
theorem new_boundary_1D (order : List Nat → List Nat) (ho : ∀ l, (order l).Perm l) (cells new : List (List Nat)) (hc : ∀ c ∈ new, IsCell 2 c) (old : List Nat)
    (hold : ∀ v, v ∈ old ↔ Boundary1 cells v) : (updateBoundary1D order new old).Nodup ∧ ∀ v, v ∈ updateBoundary1D order new old ↔ Boundary1 (cells ++ new) v ∧ v ∉ old := by
  obtain ⟨t1, t2, _⟩ := toggle_spec (vertexItems new)
  obtain ⟨_, _, l3⟩ := line hc
  refine ⟨(ho _).nodup_iff.2 (t1.filter _), fun v => ?_⟩
  have hkeys : v ∈ ((vertexItems new).foldl enterDelete []).map Prod.fst ↔ Boundary1 new v := by
    rw [← l3 v]
    have hdec : (boundary1D new).map (fun p => corner (new.getD p.1 []) p.2) = ((vertexItems new).foldl enterDelete []).map Prod.fst := by
      unfold boundary1D
      rw [List.map_map]
      apply List.map_congr_left
      intro p hp
      have hp := t2 p hp
      unfold vertexItems at hp
      obtain ⟨⟨c, i⟩, hq, hp⟩ := List.mem_flatMap.1 hp
      obtain ⟨h1, h2⟩ := List.mem_zipIdx_iff_getElem?.1 hq |> List.getElem?_eq_some_iff.1
      dsimp only at h1 h2 hp
      have hg : new.getD i [] = c := by rw [List.getD_eq_getElem _ _ h1, h2]
      rcases List.mem_cons.1 hp with rfl | hp
      · dsimp only [Function.comp]; rw [hg]
      · rw [List.mem_singleton.1 hp]
        dsimp only [Function.comp]; rw [hg]
    rw [hdec]
  unfold updateBoundary1D
  rw [(ho _).mem_iff, List.mem_filter, hkeys, decide_eq_true_eq]
  have : v ∉ old ↔ ¬ Boundary1 cells v := not_congr (hold v)
  rw [this]
  unfold Boundary1
  rw [List.countP_append]
  exact (boundary_append _ _).symm

theorem ends_mem (edges : List (Nat × Nat)) (v : Nat) : v ∈ endsOf edges ↔ ∃ e ∈ edges, e.1 = v ∨ e.2 = v := by
  unfold endsOf
  rw [List.mem_dedup, List.mem_flatMap]
  constructor
  · rintro ⟨e, he, hv⟩
    refine ⟨e, he, ?_⟩
    simp only [List.mem_cons, List.not_mem_nil, or_false] at hv
    exact hv.imp Eq.symm Eq.symm
  · rintro ⟨e, he, hv⟩
    refine ⟨e, he, ?_⟩
    simp only [List.mem_cons, List.not_mem_nil, or_false]
    exact hv.imp Eq.symm Eq.symm

/-- Edges of the boundary of the extended mesh that were not on the boundary before, and vertices of its boundary that were not there before. -/
theorem new_boundary_2D (order : List (Nat × Nat) → List (Nat × Nat)) (ho : ∀ l, (order l).Perm l) (order' : List Nat → List Nat) (ho' : ∀ l, (order' l).Perm l)
    (cells new : List (List Nat)) (hc : ∀ c ∈ new, IsCell 3 c) (oldE : List (Nat × Nat)) (oldV : List Nat)
    (hE : ∀ e, e ∈ oldE.map (fun o => sortEdge o.1 o.2) ↔ Boundary2 cells e) (hV : ∀ v, v ∈ oldV ↔ ∃ e, Boundary2 cells e ∧ (e.1 = v ∨ e.2 = v)) :
    let r := updateBoundary2D order order' new oldE oldV
    r.1.Nodup ∧ r.2.Nodup ∧ (∀ e, e ∈ r.2 ↔ Boundary2 (cells ++ new) e ∧ ¬ Boundary2 cells e) ∧
    ∀ v, v ∈ r.1 ↔ (∃ e, Boundary2 (cells ++ new) e ∧ (e.1 = v ∨ e.2 = v)) ∧ v ∉ oldV := by
  obtain ⟨t1, _, _⟩ := toggle_spec (edgeItems new)
  have he : ∀ e, e ∈ (updateBoundary2D order order' new oldE oldV).2 ↔ Boundary2 (cells ++ new) e ∧ ¬ Boundary2 cells e := by
    intro e
    unfold updateBoundary2D
    dsimp only
    rw [(ho _).mem_iff, List.mem_filter, edge_keys hc e, decide_eq_true_eq, hE e]
    unfold Boundary2
    rw [List.countP_append]
    have := boundary_append (cells.countP fun c => decide (e.1 ∈ c ∧ e.2 ∈ c)) (new.countP fun c => decide (e.1 ∈ c ∧ e.2 ∈ c))
    tauto
  refine ⟨(ho' _).nodup_iff.2 ((List.nodup_dedup _).filter _), (ho _).nodup_iff.2 (t1.filter _), he, fun v => ?_⟩
  have h1 : v ∈ (updateBoundary2D order order' new oldE oldV).1 ↔ (∃ e ∈ (updateBoundary2D order order' new oldE oldV).2, e.1 = v ∨ e.2 = v) ∧ v ∉ oldV := by
    unfold updateBoundary2D
    dsimp only
    rw [(ho' _).mem_iff, List.mem_filter, decide_eq_true_eq, ends_mem]
  rw [h1]
  constructor
  · rintro ⟨⟨e, h, h2⟩, h3⟩
    exact ⟨⟨e, ((he e).1 h).1, h2⟩, h3⟩
  · rintro ⟨⟨e, h, h2⟩, h3⟩
    exact ⟨⟨e, (he e).2 ⟨h, fun hb => h3 ((hV v).2 ⟨e, hb, h2⟩)⟩, h2⟩, h3⟩

/-- Faces of the boundary of the extended mesh that were not on the boundary before, and its edges and vertices that were not there before; old edges have to be given sorted. -/
theorem new_boundary_3D_partial (order : List (Nat × Nat × Nat) → List (Nat × Nat × Nat)) (ho : ∀ l, (order l).Perm l) (order' : List (Nat × Nat) → List (Nat × Nat))
    (ho' : ∀ l, (order' l).Perm l) (order'' : List Nat → List Nat) (ho'' : ∀ l, (order'' l).Perm l)
    (cells new : List (List Nat)) (hc : ∀ c ∈ new, IsCell 4 c) (oldF : List (Nat × Nat × Nat)) (oldE : List (Nat × Nat)) (oldV : List Nat)
    (hF : ∀ f, f ∈ oldF.map (fun o => sortFace o.1 o.2.1 o.2.2) ↔ Boundary3 cells f) (hE : ∀ e, e ∈ oldE ↔ ∃ f, Boundary3 cells f ∧ e ∈ faceEdges f)
    (hV : ∀ v, v ∈ oldV ↔ ∃ e ∈ oldE, e.1 = v ∨ e.2 = v) :
    let r := updateBoundary3D order order' order'' new oldF oldE oldV
    r.1.Nodup ∧ r.2.1.Nodup ∧ r.2.2.Nodup ∧ (∀ f, f ∈ r.2.2 ↔ Boundary3 (cells ++ new) f ∧ ¬ Boundary3 cells f) ∧
    (∀ e, e ∈ r.2.1 ↔ (∃ f, Boundary3 (cells ++ new) f ∧ e ∈ faceEdges f) ∧ e ∉ oldE) ∧
    ∀ v, v ∈ r.1 ↔ (∃ f, Boundary3 (cells ++ new) f ∧ ∃ e ∈ faceEdges f, e.1 = v ∨ e.2 = v) ∧ v ∉ oldV := by
  obtain ⟨t1, _, _⟩ := toggle_spec (faceItems new)
  have hf : ∀ f, f ∈ (updateBoundary3D order order' order'' new oldF oldE oldV).2.2 ↔ Boundary3 (cells ++ new) f ∧ ¬ Boundary3 cells f := by
    intro f
    unfold updateBoundary3D
    dsimp only
    rw [(ho _).mem_iff, List.mem_filter, face_keys hc f, decide_eq_true_eq, hF f]
    unfold Boundary3
    rw [List.countP_append]
    have := boundary_append (cells.countP fun c => decide (f.1 ∈ c ∧ f.2.1 ∈ c ∧ f.2.2 ∈ c)) (new.countP fun c => decide (f.1 ∈ c ∧ f.2.1 ∈ c ∧ f.2.2 ∈ c))
    tauto
  have he : ∀ e, e ∈ (updateBoundary3D order order' order'' new oldF oldE oldV).2.1 ↔ (∃ f, Boundary3 (cells ++ new) f ∧ e ∈ faceEdges f) ∧ e ∉ oldE := by
    intro e
    have h1 : e ∈ (updateBoundary3D order order' order'' new oldF oldE oldV).2.1 ↔ (∃ f ∈ (updateBoundary3D order order' order'' new oldF oldE oldV).2.2, e ∈ faceEdges f) ∧ e ∉ oldE := by
      unfold updateBoundary3D
      dsimp only
      rw [(ho' _).mem_iff, List.mem_filter, decide_eq_true_eq, List.mem_dedup, List.mem_flatMap]
    rw [h1]
    constructor
    · rintro ⟨⟨f, h, h2⟩, h3⟩
      exact ⟨⟨f, ((hf f).1 h).1, h2⟩, h3⟩
    · rintro ⟨⟨f, h, h2⟩, h3⟩
      exact ⟨⟨f, (hf f).2 ⟨h, fun hb => h3 ((hE e).2 ⟨f, hb, h2⟩)⟩, h2⟩, h3⟩
  refine ⟨(ho'' _).nodup_iff.2 ((List.nodup_dedup _).filter _), (ho' _).nodup_iff.2 ((List.nodup_dedup _).filter _), (ho _).nodup_iff.2 (t1.filter _), hf, he, fun v => ?_⟩
  have h1 : v ∈ (updateBoundary3D order order' order'' new oldF oldE oldV).1 ↔ (∃ e ∈ (updateBoundary3D order order' order'' new oldF oldE oldV).2.1, e.1 = v ∨ e.2 = v) ∧ v ∉ oldV := by
    unfold updateBoundary3D
    dsimp only
    rw [(ho'' _).mem_iff, List.mem_filter, decide_eq_true_eq, ends_mem]
  rw [h1]
  constructor
  · rintro ⟨⟨e, h, h2⟩, h3⟩
    obtain ⟨⟨f, f1, f2⟩, _⟩ := (he e).1 h
    exact ⟨⟨f, f1, e, f2, h2⟩, h3⟩
  · rintro ⟨⟨f, h, e, h1, h2⟩, h3⟩
    exact ⟨⟨e, (he e).2 ⟨⟨f, h, h1⟩, fun hb => h3 ((hV v).2 ⟨e, hb, h2⟩)⟩, h2⟩, h3⟩

/-- An old edge that is stored with its larger vertex first is entered again. -/
theorem old_edge_fails : let r := updateBoundary3D id id id [[1, 2, 3, 4]] [(0, 1, 2), (0, 1, 3), (0, 2, 3), (1, 2, 3)] [(0, 1), (0, 2), (0, 3), (2, 1), (1, 3), (2, 3)] [0, 1, 2, 3]
    (1, 2) ∈ r.2.1 ∧ ∀ e ∈ r.2.1, e = (1, 2) ∨ e = (1, 4) ∨ e = (2, 4) ∨ e = (3, 4) := by
  decide

/-- `getBoundaryCells` gives the cells with a vertex of the interface. -/
theorem boundary_cells (dim : Nat) (cells : List (List Nat)) (S : Shared) (v2c : Nat → List Nat) (hv : ∀ v c, c ∈ v2c v ↔ c < cells.length ∧ v ∈ cells.getD c []) :
    (getBoundaryCells dim cells S v2c).Nodup ∧ ∀ c, c ∈ getBoundaryCells dim cells S v2c ↔ c < cells.length ∧ ∃ v ∈ cells.getD c [],
      (∃ x ∈ S.vertices, at' (row cells x.1) x.2 = v) ∨
      (2 ≤ dim ∧ ∃ x ∈ S.edges, (edgeGlobal (at' (row cells x.1)) x.2.1 x.2.2).1 = v ∨ (edgeGlobal (at' (row cells x.1)) x.2.1 x.2.2).2 = v) ∨
      (3 ≤ dim ∧ ∃ x ∈ S.faces, (faceGlobal (at' (row cells x.1)) x.2.1 x.2.2).1 = v ∨ (faceGlobal (at' (row cells x.1)) x.2.1 x.2.2).2.1 = v ∨
        (faceGlobal (at' (row cells x.1)) x.2.1 x.2.2).2.2 = v) := by
  refine ⟨List.nodup_dedup _, fun c => ?_⟩
  unfold getBoundaryCells
  rw [List.mem_dedup, List.mem_flatMap]
  have hi : ∀ v, v ∈ interfaceVertices dim cells S ↔ (∃ x ∈ S.vertices, at' (row cells x.1) x.2 = v) ∨
      (2 ≤ dim ∧ ∃ x ∈ S.edges, (edgeGlobal (at' (row cells x.1)) x.2.1 x.2.2).1 = v ∨ (edgeGlobal (at' (row cells x.1)) x.2.1 x.2.2).2 = v) ∨
      (3 ≤ dim ∧ ∃ x ∈ S.faces, (faceGlobal (at' (row cells x.1)) x.2.1 x.2.2).1 = v ∨ (faceGlobal (at' (row cells x.1)) x.2.1 x.2.2).2.1 = v ∨
        (faceGlobal (at' (row cells x.1)) x.2.1 x.2.2).2.2 = v) := by
    intro v
    unfold interfaceVertices
    rw [List.mem_append, List.mem_append, List.mem_map, or_assoc]
    refine or_congr Iff.rfl (or_congr ?_ ?_)
    · by_cases h : 2 ≤ dim
      · rw [if_pos h, List.mem_flatMap]
        simp only [List.mem_cons, List.not_mem_nil, or_false, h, true_and, eq_comm]
      · rw [if_neg h]; simp [h]
    · by_cases h : 3 ≤ dim
      · rw [if_pos h, List.mem_flatMap]
        simp only [List.mem_cons, List.not_mem_nil, or_false, h, true_and, eq_comm]
      · rw [if_neg h]; simp [h]
  constructor
  · rintro ⟨v, h1, h2⟩
    obtain ⟨h3, h4⟩ := (hv v c).1 h2
    exact ⟨h3, v, h4, (hi v).1 (List.mem_dedup.1 h1)⟩
  · rintro ⟨h1, v, h2, h3⟩
    exact ⟨v, List.mem_dedup.2 ((hi v).2 h3), (hv v c).2 ⟨h1, h2⟩⟩

/-- Vertices that a third subdomain shares with two others come in the same order on both sides if no two of them have the same key. -/
theorem shared_order_partial {K : Type} [CommRing K] [LinearOrder K] (A B sA sB : List (List K)) (hAB : A.Perm B) (hA : IsSorted A sA) (hB : IsSorted B sB)
    (hinj : ∀ a ∈ A, ∀ b ∈ A, placeKey a = placeKey b → a = b) : sA = sB := by
  refine List.Perm.eq_of_pairwise (le := fun a b => placeKey a ≤ placeKey b) (fun a b ha hb h1 h2 => ?_) hA.keys hB.keys (hA.perm.trans (hAB.trans hB.perm.symm))
  exact hinj a (hA.perm.mem_iff.1 ha) b (hAB.mem_iff.2 (hB.perm.mem_iff.1 hb)) (le_antisymm h1 h2)

/-- Two places with the same key can come in different orders. -/
theorem shared_order_fails : ∃ A s t : List (List ℚ), A.Nodup ∧ IsSorted A s ∧ IsSorted A t ∧ s ≠ t := by
  refine ⟨[[100, 0], [0, 1]], [[100, 0], [0, 1]], [[0, 1], [100, 0]], by decide +kernel, ⟨List.Perm.refl _, by decide +kernel⟩, ⟨List.Perm.swap _ _ _, by decide +kernel⟩, by decide +kernel⟩

/-- Three subdomains, and a cell that is sent to two of them. -/
theorem sample_case : (let nbrs : Nat → List Nat := fun s => [[1, 2], [2, 0], [0, 1]].getD s []
    let sent : Nat → Nat → List Nat := fun s t => [[[], [0, 1], [1]], [[2], [], [3, 2]], [[0], [0], []]].getD s [] |>.getD t []
    let nc : Nat → Nat := fun _ => 4
    ((overlapCells nc nbrs sent 0).nos 1).map (label nc nbrs sent 0) = [(1, 2), (0, 0), (0, 1), (2, 0)] ∧
    ((overlapCells nc nbrs sent 1).nos 0).map (label nc nbrs sent 1) = [(1, 2), (0, 0), (0, 1), (2, 0)] ∧
    ((overlapCells nc nbrs sent 1).nos 2).map (label nc nbrs sent 1) = [(2, 0), (1, 3), (1, 2), (0, 1)]) ∧
    ((VMap.build [7, 5]).toOverlap [5, 3, 7, 3]).2 = [1, 2, 0, 2] ∧
    updateBoundary2D id id [[1, 2, 3]] [(0, 1), (1, 2), (2, 0)] [0, 1, 2] = ([3], [(1, 3), (2, 3)]) := by
  refine ⟨⟨?_, ?_, ?_⟩, ?_, ?_⟩ <;> decide +kernel

end PyNucleus.Props.C92
