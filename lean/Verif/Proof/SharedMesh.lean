import Verif.Model.SharedMesh
import Verif.Model.Refine
import Verif.Props.C81

/-!
# Lemmas about the refinement of interfaces
-/

namespace PyNucleus.SharedMesh

open PyNucleus.SimplexMapper PyNucleus.Refine
open PyNucleus.Props.C81 (Distinct orders)

/-- Number of the midpoint of two vertices among the ten nodes of a tetrahedron. -/
def mid (i j : Nat) : Nat := [[0, 4, 5, 6], [4, 1, 7, 8], [5, 7, 2, 9], [6, 8, 9, 3]].getD i [] |>.getD j 0

/-- `findFaceInCell` of a sorted face in terms of equality. -/
def findEq (c : Nat → Nat) (x y z : Nat) : Int :=
  if c 3 ≠ x ∧ c 3 ≠ y ∧ c 3 ≠ z then 0 else if c 2 ≠ x ∧ c 2 ≠ y ∧ c 2 ≠ z then 1 else if c 0 ≠ x ∧ c 0 ≠ y ∧ c 0 ≠ z then 2 else 3

theorem find_eq (c : Nat → Nat) (hc : Distinct 4 c) (x y z : Nat) (hx : ∃ i < 4, x = c i) (hy : ∃ i < 4, y = c i) (hz : ∃ i < 4, z = c i) (h1 : x ≠ y) (h2 : x ≠ z) (h3 : y ≠ z) :
    findFace c (sortFace x y z) = findEq c x y z := by
  obtain ⟨i, hi, rfl⟩ := hx
  obtain ⟨j, hj, rfl⟩ := hy
  obtain ⟨k, hk, rfl⟩ := hz
  have hij : i ≠ j := fun e => h1 (by rw [e])
  have hik : i ≠ k := fun e => h2 (by rw [e])
  have hjk : j ≠ k := fun e => h3 (by rw [e])
  obtain ⟨w, hp⟩ : ∃ w, [i, j, k, w].Perm [0, 1, 2, 3] := by
    refine ⟨6 - i - j - k, ?_⟩
    interval_cases i <;> interval_cases j <;> first | (exfalso; omega) | (interval_cases k <;> first | (exfalso; omega) | decide)
  have hf := Props.C81.find_opposite c hc i j k w hp
  have hn : ∀ l < 4, (c l ≠ c i ∧ c l ≠ c j ∧ c l ≠ c k) ↔ l = w := by
    intro l hl
    have hm : l ∈ [i, j, k, w] := by rw [hp.mem_iff]; simp; omega
    have hd : [i, j, k, w].Nodup := hp.nodup_iff.2 (by decide)
    have hw : w < 4 := by have : w ∈ [0, 1, 2, 3] := hp.mem_iff.1 (by simp); simp at this; omega
    simp only [List.nodup_cons, List.mem_cons, List.not_mem_nil, or_false, not_or] at hd hm
    constructor
    · rintro ⟨a, b, d⟩
      rcases hm with rfl | rfl | rfl | rfl
      · exact absurd rfl a
      · exact absurd rfl b
      · exact absurd rfl d
      · rfl
    · rintro rfl
      exact ⟨fun e => hd.1.2.2 (hc _ hi _ hl e.symm), fun e => hd.2.1.2 (hc _ hj _ hl e.symm), fun e => hd.2.2.1 (hc _ hk _ hl e.symm)⟩
  have hw : w < 4 := by have : w ∈ [0, 1, 2, 3] := hp.mem_iff.1 (by simp); simp at this; omega
  rw [hf]
  unfold findEq
  simp only [hn 3 (by omega), hn 2 (by omega), hn 0 (by omega)]
  interval_cases w <;> simp

/-- The children of a tetrahedron with nodes `N`. -/
def kidsOf (k : Nat) (N : Nat → Nat) : List (List Nat) := children3 k (N 0) (N 1) (N 2) (N 3) (N 4) (N 5) (N 6) (N 7) (N 8) (N 9)

theorem perm3 (x y z a b c : Nat) (h : [x, y, z].Perm [a, b, c]) : (x = a ∧ y = b ∧ z = c) ∨ (x = a ∧ y = c ∧ z = b) ∨ (x = b ∧ y = a ∧ z = c) ∨ (x = b ∧ y = c ∧ z = a) ∨
    (x = c ∧ y = a ∧ z = b) ∨ (x = c ∧ y = b ∧ z = a) := by
  have hx : x ∈ [a, b, c] := h.mem_iff.1 (by simp)
  have two : ∀ p q : Nat, [y, z].Perm [p, q] → (y = p ∧ z = q) ∨ (y = q ∧ z = p) := by
    intro p q hq
    have hy : y ∈ [p, q] := hq.mem_iff.1 (by simp)
    simp only [List.mem_cons, List.not_mem_nil, or_false] at hy
    rcases hy with rfl | rfl
    · left
      have := (List.perm_cons y).1 hq
      rw [List.perm_singleton] at this
      simpa using this
    · right
      have := (List.perm_cons y).1 (hq.trans (List.Perm.swap y p []))
      rw [List.perm_singleton] at this
      simpa using this
  simp only [List.mem_cons, List.not_mem_nil, or_false] at hx
  rcases hx with rfl | rfl | rfl
  · rcases two _ _ ((List.perm_cons x).1 h) with h | h <;> simp [h]
  · rcases two _ _ ((List.perm_cons x).1 (h.trans (List.Perm.swap x a [c]))) with h | h <;> simp [h]
  · rcases two a b ((List.perm_cons x).1 (h.trans (((List.Perm.swap x b []).cons a).trans (List.Perm.swap x a [b])))) with h | h <;> simp [h]

theorem order_eq (x y z t0 t1 t2 : Nat) (u : Nat → Nat) (h1 : x ≠ y) (h2 : x ≠ z) (h3 : y ≠ z) (h : [t0, t1, t2].Perm [x, y, z]) :
    orderOf (position (x, y, z) t0 (u 0), position (x, y, z) t1 (u 1), position (x, y, z) t2 (u 2)) ∈ orders ∧
    permute (orderOf (position (x, y, z) t0 (u 0), position (x, y, z) t1 (u 1), position (x, y, z) t2 (u 2))) (x, y, z) = (t0, t1, t2) := by
  rcases perm3 _ _ _ _ _ _ h with ⟨rfl, rfl, rfl⟩ | ⟨rfl, rfl, rfl⟩ | ⟨rfl, rfl, rfl⟩ | ⟨rfl, rfl, rfl⟩ | ⟨rfl, rfl, rfl⟩ | ⟨rfl, rfl, rfl⟩ <;>
    simp [position, orderOf, permute, orders, h1, h2, h3, h1.symm, h2.symm, h3.symm]

theorem faceGlobal_permute (c : Nat → Nat) (n : Nat) (o : Int) : faceGlobal c n o = permute o (faceGlobal c n 0) := by
  have perm_eq : ∀ (o : Int) (a b d : Nat), (c (permute o (a, b, d)).1, c (permute o (a, b, d)).2.1, c (permute o (a, b, d)).2.2) = permute o (c a, c b, c d) := by
    intro o a b d
    unfold permute
    split_ifs <;> rfl
  unfold faceGlobal faceVertices
  split_ifs <;> exact perm_eq o _ _ _

theorem middle_eq (pop : List Nat → Option Nat) (hp : ∀ a, pop [a] = some a) (u : Nat → Nat) (k : Nat) (hk : k < 3) (N : Nat → Nat) (hN : ∀ i j, i < 10 → j < 10 → (N i = N j ↔ i = j))
    (n : Nat) (hn : n < 4) (o : Int) (ho : o ∈ orders) :
    ∃ q no o', middle pop u (fun j => (kidsOf k N).getD j []) n o = some (q, no, o') ∧ q < 8 ∧ no < 4 ∧ o' ∈ orders ∧
      faceGlobal (at' ((kidsOf k N).getD q [])) no o' =
        (N (mid (faceVertices n o).1 (faceVertices n o).2.1), N (mid (faceVertices n o).2.1 (faceVertices n o).2.2), N (mid (faceVertices n o).2.2 (faceVertices n o).1)) := by
  have hd : ∀ a b c d, a < 10 → b < 10 → c < 10 → d < 10 → [a, b, c, d].Nodup → Distinct 4 (at' [N a, N b, N c, N d]) := by
    intro a b c d ha hb hc hd h i hi j hj
    simp only [List.nodup_cons, List.mem_cons, List.not_mem_nil, or_false, not_or] at h
    interval_cases i <;> interval_cases j <;> simp [at', hN, ha, hb, hc, hd] <;> omega
  have hfind : ∀ a b c d x y z, a < 10 → b < 10 → c < 10 → d < 10 → [a, b, c, d].Nodup → x ∈ [a, b, c, d] → y ∈ [a, b, c, d] → z ∈ [a, b, c, d] → x ≠ y → x ≠ z → y ≠ z →
      findFace (at' [N a, N b, N c, N d]) (sortFace (N x) (N y) (N z)) = findEq (at' [a, b, c, d]) x y z := by
    intro a b c d x y z ha hb hc hd' h hx hy hz h1 h2 h3
    have hlt : ∀ t ∈ [a, b, c, d], t < 10 := by simp [ha, hb, hc, hd']
    have hm : ∀ t ∈ [a, b, c, d], ∃ i < 4, N t = at' [N a, N b, N c, N d] i := by
      intro t ht
      simp only [List.mem_cons, List.not_mem_nil, or_false] at ht
      rcases ht with rfl | rfl | rfl | rfl
      · exact ⟨0, by omega, rfl⟩
      · exact ⟨1, by omega, rfl⟩
      · exact ⟨2, by omega, rfl⟩
      · exact ⟨3, by omega, rfl⟩
    rw [find_eq _ (hd a b c d ha hb hc hd' h) _ _ _ (hm x hx) (hm y hy) (hm z hz) (by rw [Ne, hN _ _ (hlt x hx) (hlt y hy)]; exact h1)
      (by rw [Ne, hN _ _ (hlt x hx) (hlt z hz)]; exact h2) (by rw [Ne, hN _ _ (hlt y hy) (hlt z hz)]; exact h3)]
    have e : ∀ i < 4, ∀ t ∈ [a, b, c, d], at' [N a, N b, N c, N d] i = N t ↔ at' [a, b, c, d] i = t := by
      intro i hi t ht
      have := hlt t ht
      interval_cases i <;> simp [at', hN, ha, hb, hc, hd', this]
    unfold findEq
    simp only [Ne, e 3 (by omega) _ hx, e 3 (by omega) _ hy, e 3 (by omega) _ hz, e 2 (by omega) _ hx, e 2 (by omega) _ hy, e 2 (by omega) _ hz, e 0 (by omega) _ hx, e 0 (by omega) _ hy, e 0 (by omega) _ hz]
  have hL1 : ∀ i < 4, ∀ j < 4, i ≠ j → inter ((kidsOf k N).getD i []) ((kidsOf k N).getD j []) = [N (mid i j)] := by
    intro i hi j hj hij
    interval_cases i <;> interval_cases j <;> first | (exfalso; omega) | simp [kidsOf, children3, inter, hN, mid]
  have hF : ∀ i < 4, ∀ j < 4, i ≠ j → pop (inter ((kidsOf k N).getD i []) ((kidsOf k N).getD j [])) = some (N (mid i j)) := fun i hi j hj hij => by rw [hL1 i hi j hj hij, hp]
  have main : ∀ (q no : Nat) (a b c x y z : Nat), q < 8 → no < 4 → x < 10 → y < 10 → z < 10 → x ≠ y → x ≠ z → y ≠ z →
      [4, 5, 6, 7].find? (fun q => decide ((inner (fun j => (kidsOf k N).getD j []) n).1 ∈ (kidsOf k N).getD q [] ∧ (inner (fun j => (kidsOf k N).getD j []) n).2.1 ∈ (kidsOf k N).getD q [] ∧
        (inner (fun j => (kidsOf k N).getD j []) n).2.2 ∈ (kidsOf k N).getD q [])) = some q →
      inner (fun j => (kidsOf k N).getD j []) n = (N a, N b, N c) →
      findFace (at' ((kidsOf k N).getD q [])) (sortFace (N a) (N b) (N c)) = no →
      faceGlobal (at' ((kidsOf k N).getD q [])) no 0 = (N x, N y, N z) →
      [x, y, z].Perm [mid (faceVertices n 0).1 (faceVertices n 0).2.1, mid (faceVertices n 0).2.1 (faceVertices n 0).2.2, mid (faceVertices n 0).2.2 (faceVertices n 0).1] →
    ∃ q no o', middle pop u (fun j => (kidsOf k N).getD j []) n o = some (q, no, o') ∧ q < 8 ∧ no < 4 ∧ o' ∈ orders ∧
      faceGlobal (at' ((kidsOf k N).getD q [])) no o' =
        (N (mid (faceVertices n o).1 (faceVertices n o).2.1), N (mid (faceVertices n o).2.1 (faceVertices n o).2.2), N (mid (faceVertices n o).2.2 (faceVertices n o).1)) := by
    intro q no a b c x y z hq hno hx hy hz h1 h2 h3 e1 e2 e3 e4 e5
    have hf : ∀ n < 4, ∀ o ∈ orders, (faceVertices n o).1 < 4 ∧ (faceVertices n o).2.1 < 4 ∧ (faceVertices n o).2.2 < 4 ∧ (faceVertices n o).1 ≠ (faceVertices n o).2.1 ∧
        (faceVertices n o).2.1 ≠ (faceVertices n o).2.2 ∧ (faceVertices n o).2.2 ≠ (faceVertices n o).1 ∧
        [mid (faceVertices n o).1 (faceVertices n o).2.1, mid (faceVertices n o).2.1 (faceVertices n o).2.2, mid (faceVertices n o).2.2 (faceVertices n o).1].Perm
          [mid (faceVertices n 0).1 (faceVertices n 0).2.1, mid (faceVertices n 0).2.1 (faceVertices n 0).2.2, mid (faceVertices n 0).2.2 (faceVertices n 0).1] := by decide
    obtain ⟨f1, f2, f3, f4, f5, f6, f7⟩ := hf n hn o ho
    have hperm := ((f7.trans e5.symm).map N)
    simp only [List.map_cons, List.map_nil] at hperm
    have hne : ∀ i j, i < 10 → j < 10 → i ≠ j → N i ≠ N j := fun i j hi hj hij e => hij ((hN i j hi hj).1 e)
    obtain ⟨g1, g2⟩ := order_eq (N x) (N y) (N z) _ _ _ u (hne x y hx hy h1) (hne x z hx hz h2) (hne y z hy hz h3) hperm
    refine ⟨q, no, _, ?_, hq, hno, g1, ?_⟩
    · unfold middle
      dsimp only
      rw [e1, hF _ f1 _ f2 f4, hF _ f2 _ f3 f5, hF _ f3 _ f1 f6]
      simp only [Option.bind_eq_bind, Option.bind_some, e2, e3, if_neg (show ¬ (no : Int) < 0 by omega), Int.toNat_natCast, e4]
      rfl
    · rw [faceGlobal_permute, e4, g2]
  interval_cases k <;> interval_cases n
  · refine main 4 0 5 7 4 4 5 7 (by omega) (by omega) (by omega) (by omega) (by omega) (by omega) (by omega) (by omega) ?_ rfl ?_ rfl (by decide)
    · simp [inner, kidsOf, children3, at', hN]
    · exact hfind 4 7 5 9 5 7 4 (by omega) (by omega) (by omega) (by omega) (by decide) (by decide) (by decide) (by decide) (by decide) (by decide) (by decide)
  · refine main 5 3 4 8 6 6 4 8 (by omega) (by omega) (by omega) (by omega) (by omega) (by omega) (by omega) (by omega) ?_ rfl ?_ rfl (by decide)
    · simp [inner, kidsOf, children3, at', hN]
    · exact hfind 4 9 6 8 4 8 6 (by omega) (by omega) (by omega) (by omega) (by decide) (by decide) (by decide) (by decide) (by decide) (by decide) (by decide)
  · refine main 7 2 7 9 8 8 7 9 (by omega) (by omega) (by omega) (by omega) (by omega) (by omega) (by omega) (by omega) ?_ rfl ?_ rfl (by decide)
    · simp [inner, kidsOf, children3, at', hN]
    · exact hfind 4 8 7 9 7 9 8 (by omega) (by omega) (by omega) (by omega) (by decide) (by decide) (by decide) (by decide) (by decide) (by decide) (by decide)
  · refine main 6 2 5 6 9 5 6 9 (by omega) (by omega) (by omega) (by omega) (by omega) (by omega) (by omega) (by omega) ?_ rfl ?_ rfl (by decide)
    · simp [inner, kidsOf, children3, at', hN]
    · exact hfind 4 5 6 9 5 6 9 (by omega) (by omega) (by omega) (by omega) (by decide) (by decide) (by decide) (by decide) (by decide) (by decide) (by decide)
  · refine main 5 0 5 7 4 4 5 7 (by omega) (by omega) (by omega) (by omega) (by omega) (by omega) (by omega) (by omega) ?_ rfl ?_ rfl (by decide)
    · simp [inner, kidsOf, children3, at', hN]
    · exact hfind 4 7 5 8 5 7 4 (by omega) (by omega) (by omega) (by omega) (by decide) (by decide) (by decide) (by decide) (by decide) (by decide) (by decide)
  · refine main 4 3 4 8 6 6 4 8 (by omega) (by omega) (by omega) (by omega) (by omega) (by omega) (by omega) (by omega) ?_ rfl ?_ rfl (by decide)
    · simp [inner, kidsOf, children3, at', hN]
    · exact hfind 4 5 6 8 4 8 6 (by omega) (by omega) (by omega) (by omega) (by decide) (by decide) (by decide) (by decide) (by decide) (by decide) (by decide)
  · refine main 7 2 7 9 8 8 7 9 (by omega) (by omega) (by omega) (by omega) (by omega) (by omega) (by omega) (by omega) ?_ rfl ?_ rfl (by decide)
    · simp [inner, kidsOf, children3, at', hN]
    · exact hfind 5 8 7 9 7 9 8 (by omega) (by omega) (by omega) (by omega) (by decide) (by decide) (by decide) (by decide) (by decide) (by decide) (by decide)
  · refine main 6 1 5 6 9 5 6 9 (by omega) (by omega) (by omega) (by omega) (by omega) (by omega) (by omega) (by omega) ?_ rfl ?_ rfl (by decide)
    · simp [inner, kidsOf, children3, at', hN]
    · exact hfind 5 6 8 9 5 6 9 (by omega) (by omega) (by omega) (by omega) (by decide) (by decide) (by decide) (by decide) (by decide) (by decide) (by decide)
  · refine main 7 0 5 7 4 4 5 7 (by omega) (by omega) (by omega) (by omega) (by omega) (by omega) (by omega) (by omega) ?_ rfl ?_ rfl (by decide)
    · simp [inner, kidsOf, children3, at', hN]
    · exact hfind 4 7 5 6 5 7 4 (by omega) (by omega) (by omega) (by omega) (by decide) (by decide) (by decide) (by decide) (by decide) (by decide) (by decide)
  · refine main 4 1 4 8 6 4 8 6 (by omega) (by omega) (by omega) (by omega) (by omega) (by omega) (by omega) (by omega) ?_ rfl ?_ rfl (by decide)
    · simp [inner, kidsOf, children3, at', hN]
    · exact hfind 4 8 7 6 4 8 6 (by omega) (by omega) (by omega) (by omega) (by decide) (by decide) (by decide) (by decide) (by decide) (by decide) (by decide)
  · refine main 5 2 7 9 8 9 8 7 (by omega) (by omega) (by omega) (by omega) (by omega) (by omega) (by omega) (by omega) ?_ rfl ?_ rfl (by decide)
    · simp [inner, kidsOf, children3, at', hN]
    · exact hfind 6 9 8 7 7 9 8 (by omega) (by omega) (by omega) (by omega) (by decide) (by decide) (by decide) (by decide) (by decide) (by decide) (by decide)
  · refine main 6 1 5 6 9 6 9 5 (by omega) (by omega) (by omega) (by omega) (by omega) (by omega) (by omega) (by omega) ?_ rfl ?_ rfl (by decide)
    · simp [inner, kidsOf, children3, at', hN]
    · exact hfind 6 9 7 5 5 6 9 (by omega) (by omega) (by omega) (by omega) (by decide) (by decide) (by decide) (by decide) (by decide) (by decide) (by decide)

end PyNucleus.SharedMesh
