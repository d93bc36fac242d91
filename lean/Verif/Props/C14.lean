import Verif.Model.EdgeKey

/-! # C14 Edge and face keys are lossless -/

namespace PyNucleus.Props.C14

open PyNucleus.EdgeKey

/-- A vertex number. -/
def IsVertex (z : Int) : Prop := 0 ≤ z ∧ z < 2 ^ 31

/-- A key of an edge. -/
def IsKey (z : Int) : Prop := 0 ≤ z ∧ z < 2 ^ 62

private theorem wrap64_id (z : Int) (h : IsKey z) : wrap64 z = z := by
  unfold wrap64 IsKey at *; rw [Int.bmod_eq_of_le] <;> omega

private theorem wrap32_id (z : Int) (h : IsVertex z) : wrap32 z = z := by
  unfold wrap32 IsVertex at *; rw [Int.bmod_eq_of_le] <;> omega

private theorem encode_eq (a b : Int) (ha : IsVertex a) (hb : IsVertex b) :
    encodeEdge (a, b) = 2 ^ 31 * a + b := by
  unfold encodeEdge maxValEdge IsVertex at *
  rw [wrap64_id (2 ^ 31 * a) (by unfold IsKey; omega), wrap64_id _ (by unfold IsKey; simp only; omega)]

/-- Decoding an encoded edge gives the edge back, and the key is a non-negative 62 bit number. -/
theorem decode_encode_edge (a b : Int) (ha : IsVertex a) (hb : IsVertex b) :
    decodeEdge (encodeEdge (a, b)) = (a, b) ∧ IsKey (encodeEdge (a, b)) := by
  rw [encode_eq a b ha hb]
  have h1 : Int.fdiv (2 ^ 31 * a + b) maxValEdge = a := by
    rw [Int.fdiv_eq_ediv_of_nonneg _ (by decide)]; unfold maxValEdge IsVertex at *; omega
  have h2 : Int.fmod (2 ^ 31 * a + b) maxValEdge = b := by
    rw [Int.fmod_eq_emod_of_nonneg _ (by decide)]; unfold maxValEdge IsVertex at *; omega
  constructor
  · unfold decodeEdge
    rw [h1, h2, wrap32_id a ha, wrap32_id b hb]
  · unfold IsKey IsVertex at *; omega

/-- Encoding a decoded key gives the key back. -/
theorem encode_decode_edge (v : Int) (hv : IsKey v) : encodeEdge (decodeEdge v) = v ∧
    IsVertex (decodeEdge v).1 ∧ IsVertex (decodeEdge v).2 := by
  unfold decodeEdge maxValEdge
  rw [Int.fdiv_eq_ediv_of_nonneg _ (by decide), Int.fmod_eq_emod_of_nonneg _ (by decide)]
  have h1 : IsVertex (v / 2 ^ 31) := by unfold IsVertex IsKey at *; omega
  have h2 : IsVertex (v % 2 ^ 31) := by unfold IsVertex IsKey at *; omega
  rw [wrap32_id _ h1, wrap32_id _ h2]
  refine ⟨?_, h1, h2⟩
  rw [encode_eq _ _ h1 h2]
  omega

/-- Faces: decoding inverts encoding, and encoding inverts decoding. -/
theorem face_round_trip :
    (∀ a b c : Int, IsVertex b → IsVertex c → decodeFace (encodeFace (a, b, c)) = (a, b, c)) ∧
    (∀ v : Int × Int, IsKey v.2 → encodeFace (decodeFace v) = v) := by
  constructor
  · intro a b c hb hc
    unfold decodeFace encodeFace
    rw [(decode_encode_edge b c hb hc).1]
  · intro v hv
    unfold decodeFace encodeFace
    rw [(encode_decode_edge v.2 hv).1]

/-- Distinct edges have distinct keys, distinct faces have distinct keys. -/
theorem keys_injective :
    (∀ a b a' b' : Int, IsVertex a → IsVertex b → IsVertex a' → IsVertex b' →
      encodeEdge (a, b) = encodeEdge (a', b') → (a, b) = (a', b')) ∧
    (∀ a b c a' b' c' : Int, IsVertex b → IsVertex c → IsVertex b' → IsVertex c' →
      encodeFace (a, b, c) = encodeFace (a', b', c') → (a, b, c) = (a', b', c')) := by
  constructor
  · intro a b a' b' ha hb ha' hb' h
    rw [← (decode_encode_edge a b ha hb).1, h, (decode_encode_edge a' b' ha' hb').1]
  · intro a b c a' b' c' hb hc hb' hc' h
    rw [← face_round_trip.1 a b c hb hc, h, face_round_trip.1 a' b' c' hb' hc']

/-- `sortEdge` returns its arguments in non-decreasing order. -/
theorem sortEdge_sorted (a b : Int) :
    (sortEdge a b).1 ≤ (sortEdge a b).2 ∧ [(sortEdge a b).1, (sortEdge a b).2].Perm [a, b] := by
  unfold sortEdge
  split
  · exact ⟨by simp only; omega, List.Perm.refl _⟩
  · exact ⟨by simp only; omega, List.Perm.swap _ _ _⟩

/-- `sortFace` returns its arguments in non-decreasing order. -/
theorem sortFace_sorted (a b c : Int) :
    (sortFace a b c).1 ≤ (sortFace a b c).2.1 ∧ (sortFace a b c).2.1 ≤ (sortFace a b c).2.2 ∧
      [(sortFace a b c).1, (sortFace a b c).2.1, (sortFace a b c).2.2].Perm [a, b, c] := by
  have hp : ∀ x y z : Int, [x, y, z].Perm [a, b, c] ↔ ∀ w, [x, y, z].count w = [a, b, c].count w :=
    fun x y z => List.perm_iff_count
  unfold sortFace
  split <;> split <;> (try split) <;> refine ⟨by simp only; omega, by simp only; omega, ?_⟩ <;>
    rw [hp] <;> intro w <;> simp only [List.count_cons, List.count_nil, beq_iff_eq] <;> omega

/-- The key of an edge or face does not depend on the order of the vertices. -/
theorem key_order_independent :
    (∀ a b : Int, sortEdge a b = sortEdge b a) ∧
    (∀ a b c x y z : Int, [x, y, z].Perm [a, b, c] → sortFace x y z = sortFace a b c) := by
  constructor
  · intro a b
    unfold sortEdge
    split <;> split <;> simp only [Prod.mk.injEq] <;> omega
  · intro a b c x y z h
    obtain ⟨h1, h2, h3⟩ := sortFace_sorted x y z
    obtain ⟨g1, g2, g3⟩ := sortFace_sorted a b c
    have hp := (h3.trans h).trans g3.symm
    generalize sortFace x y z = s at *
    generalize sortFace a b c = t at *
    obtain ⟨s0, s1, s2⟩ := s
    obtain ⟨t0, t1, t2⟩ := t
    simp only at h1 h2 g1 g2 hp
    have := List.Perm.eq_of_pairwise (le := fun a b : Int => a ≤ b) (by intros; omega) (by simp; omega) (by simp; omega) hp
    simpa using this

/-- Sorted edges (faces) have equal keys exactly if they have the same vertices. -/
theorem same_key_iff_same_vertices :
    (∀ a b c d : Int, IsVertex a → IsVertex b → IsVertex c → IsVertex d →
      (encodeEdge (sortEdge a b) = encodeEdge (sortEdge c d) ↔ [a, b].Perm [c, d])) ∧
    (∀ a b c x y z : Int, IsVertex a → IsVertex b → IsVertex c → IsVertex x → IsVertex y → IsVertex z →
      (encodeFace (sortFace a b c) = encodeFace (sortFace x y z) ↔ [a, b, c].Perm [x, y, z])) := by
  constructor
  · intro a b c d ha hb hc hd
    have p1 := (sortEdge_sorted a b).2
    have p2 := (sortEdge_sorted c d).2
    constructor
    · intro h
      have v1 : ∀ w ∈ [(sortEdge a b).1, (sortEdge a b).2], IsVertex w := by
        intro w hw
        have := p1.mem_iff.1 hw
        simp at this
        rcases this with rfl | rfl <;> assumption
      have v2 : ∀ w ∈ [(sortEdge c d).1, (sortEdge c d).2], IsVertex w := by
        intro w hw
        have := p2.mem_iff.1 hw
        simp at this
        rcases this with rfl | rfl <;> assumption
      have := keys_injective.1 (sortEdge a b).1 (sortEdge a b).2 (sortEdge c d).1
        (sortEdge c d).2 (v1 _ (by simp)) (v1 _ (by simp)) (v2 _ (by simp))
        (v2 _ (by simp)) h
      simp only [Prod.mk.injEq] at this
      rw [this.1, this.2] at p1
      exact p1.symm.trans p2
    · intro h
      have h' : (a = c ∧ b = d) ∨ (a = d ∧ b = c) := by
        have ha : a ∈ [c, d] := h.mem_iff.1 (by simp)
        simp at ha
        rcases ha with rfl | rfl
        · have := (List.perm_cons a).1 h
          simp at this
          exact Or.inl ⟨rfl, this⟩
        · have := (List.perm_cons a).1 (h.trans (List.Perm.swap _ _ _))
          simp at this
          exact Or.inr ⟨rfl, this⟩
      rcases h' with ⟨rfl, rfl⟩ | ⟨rfl, rfl⟩
      · rfl
      · rw [key_order_independent.1]
  · intro a b c x y z ha hb hc hx hy hz
    obtain ⟨_, _, p1⟩ := sortFace_sorted a b c
    obtain ⟨_, _, p2⟩ := sortFace_sorted x y z
    constructor
    · intro h
      have v1 : ∀ w ∈ [(sortFace a b c).1, (sortFace a b c).2.1, (sortFace a b c).2.2], IsVertex w := by
        intro w hw
        have := p1.mem_iff.1 hw
        simp at this
        rcases this with rfl | rfl | rfl <;> assumption
      have v2 : ∀ w ∈ [(sortFace x y z).1, (sortFace x y z).2.1, (sortFace x y z).2.2], IsVertex w := by
        intro w hw
        have := p2.mem_iff.1 hw
        simp at this
        rcases this with rfl | rfl | rfl <;> assumption
      have := keys_injective.2 (sortFace a b c).1 (sortFace a b c).2.1 (sortFace a b c).2.2
        (sortFace x y z).1 (sortFace x y z).2.1 (sortFace x y z).2.2 (v1 _ (by simp)) (v1 _ (by simp)) (v2 _ (by simp))
        (v2 _ (by simp)) h
      simp only [Prod.mk.injEq] at this
      rw [this.1, this.2.1, this.2.2] at p1
      exact p1.symm.trans p2
    · intro h
      rw [key_order_independent.2 x y z a b c h]

/-! ### Concrete cases -/

example : IsVertex 2147483647 ∧ IsVertex 5 ∧
    decodeEdge (encodeEdge (5, 2147483647)) = (5, 2147483647) := by
  refine ⟨⟨by decide, by decide⟩, ⟨by decide, by decide⟩, by decide⟩

example : sortFace 9 3 5 = (3, 5, 9) ∧ sortEdge 9 3 = (3, 9) ∧ [9, 3, 5].Perm [5, 9, 3] := by decide

/-- The bound is sharp: with the next vertex number two edges share a key. -/
theorem bound_sharp : encodeEdge (0, 2 ^ 31) = encodeEdge (1, 0) := by decide

end PyNucleus.Props.C14
