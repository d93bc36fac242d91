import Verif.Proof.Cuthill3

/-!
# C18 Cuthill-McKee ordering
-/

namespace PyNucleus.Props.C18

open PyNucleus.Loops PyNucleus.Spec PyNucleus.CSR PyNucleus.Cuthill

/-- Neighbours of node `i` of a graph in CSR format. -/
def neighbours (G : Graph) (i : Nat) : List Nat := csrRow G.indptr G.indices i

/-- Degree of a node: number of stored neighbours, a loop counted twice. -/
def degree (G : Graph) (i : Nat) : Nat := (neighbours G i).length + if i ∈ neighbours G i then 1 else 0

/-- A square graph with well formed arrays. -/
structure WellFormed (G : Graph) : Prop where
  indptr : ValidIndptr G.indptr G.numRows G.indices.length
  cols : ∀ j ∈ G.indices, j < G.numRows

/-- The degrees of all nodes. -/
def degreeList (G : Graph) : List Nat := (List.range G.numRows).map (degree G)

theorem degrees_list (G : Graph) (hG : WellFormed G) : degrees G.indices G.indptr G.numRows = degreeList G := by
  have h := degrees_eq G ⟨hG.indptr, hG.cols⟩
  apply List.ext_getElem
  · simp [h.1, degreeList]
  · intro i h1 h2
    rw [← getD_get _ i h1, h.2 i (by rw [h.1] at h1; exact h1)]
    simp only [degreeList, List.getElem_map, List.getElem_range]
    rfl

/-- The degrees are the numbers of stored neighbours, a loop counted twice. -/
theorem node_degrees (G : Graph) (hG : WellFormed G) (i : Nat) (hi : i < G.numRows) :
    (degrees G.indices G.indptr G.numRows).getD i 0 = degree G i := by
  rw [degrees_list G hG]
  simp [degreeList, hi]

/-- The computed ordering is a permutation of the nodes, for any contents of the uninitialised
arrays and any way in which `argsort` breaks ties. -/
theorem permutation (G : Graph) (hG : WellFormed G) (inds rev : List Nat) (h1 : ArgSort (degreeList G) inds)
    (h2 : ArgSort inds rev) (order u : List Nat) (ho : order.length = G.numRows) (hu : u.length = G.numRows) (reverse : Bool) :
    (cuthillMcKee G inds rev order u reverse).Perm (List.range G.numRows) := by
  have h := (outer_eq ⟨hG.indptr, hG.cols⟩ (by rw [degrees_list G hG]; exact h1) h2 order ho).1
  unfold cuthillMcKee
  cases reverse with
  | false => exact h
  | true =>
    rw [if_pos rfl]
    have hl := h.length_eq
    rw [List.length_range] at hl
    rw [reverse_eq G.numRows _ u hl hu]
    exact (List.reverse_perm _).trans h

/-- The ordering is a breadth first search that starts every component at a node of least
degree among the remaining nodes. -/
theorem breadth_first (G : Graph) (hG : WellFormed G) (inds rev : List Nat) (h1 : ArgSort (degreeList G) inds)
    (h2 : ArgSort inds rev) (order u : List Nat) (ho : order.length = G.numRows) :
    BreadthFirst (neighbours G) (degree G) G.numRows (cuthillMcKee G inds rev order u false) := by
  obtain ⟨hp, h⟩ := outer_eq ⟨hG.indptr, hG.cols⟩ (by rw [degrees_list G hG]; exact h1) h2 order ho
  intro p hlt
  rcases h.bfs p hlt with ⟨q, _, b, c⟩ | ⟨_, b, c⟩
  · exact Or.inl ⟨q, b, c⟩
  · refine Or.inr ⟨b, fun k hk hn => ?_⟩
    have hx := List.mem_range.1 (hp.mem_iff.1 (getD_mem' _ p hlt))
    have := c k hk hn
    rw [node_degrees G hG k hk, node_degrees G hG _ hx] at this
    exact this

/-- Neighbours of earlier nodes come first; neighbours of the same node come by degree. -/
theorem degree_ordered (G : Graph) (hG : WellFormed G) (inds rev : List Nat) (h1 : ArgSort (degreeList G) inds)
    (h2 : ArgSort inds rev) (order u : List Nat) (ho : order.length = G.numRows) :
    DegreeOrdered (neighbours G) (degree G) (cuthillMcKee G inds rev order u false) := by
  obtain ⟨hp, h⟩ := outer_eq ⟨hG.indptr, hG.cols⟩ (by rw [degrees_list G hG]; exact h1) h2 order ho
  intro p p' q hq hpp hp' hadj
  obtain ⟨q', a, b, c⟩ := h.ord p p' q hq hpp hp' hadj
  refine ⟨q', a, b, fun e => ?_⟩
  have := c e
  beta_reduce at this
  have hx := List.mem_range.1 (hp.mem_iff.1 (getD_mem' _ p (Nat.lt_trans hpp hp')))
  have hy := List.mem_range.1 (hp.mem_iff.1 (getD_mem' _ p' hp'))
  rw [node_degrees G hG _ hx, node_degrees G hG _ hy] at this
  exact this

/-- `reverse=True` returns the ordering backwards. -/
theorem reversed (G : Graph) (hG : WellFormed G) (inds rev : List Nat) (h1 : ArgSort (degreeList G) inds)
    (h2 : ArgSort inds rev) (order u : List Nat) (ho : order.length = G.numRows) (hu : u.length = G.numRows) :
    cuthillMcKee G inds rev order u true = (cuthillMcKee G inds rev order u false).reverse := by
  have hl := (permutation G hG inds rev h1 h2 order u ho hu false).length_eq
  rw [List.length_range] at hl
  exact reverse_eq G.numRows _ u hl hu

/-- Every component visited so far is finished before the next seed: the loop over the levels
stops only when no unprocessed node is left, within `num_rows + 1` passes. -/
theorem levels_stop (G : Graph) (hG : WellFormed G) (inds rev : List Nat) (hI : Inverse inds rev G.numRows) (P : List Nat)
    (s : St) (h : Rel G inds rev P s) (seed : Nat) (hs : seed < G.numRows) (hn : seed ∉ P)
    (hinv : Inv (nbrs G) (fun i => (degrees G.indices G.indptr G.numRows).getD i 0) G.numRows P P.length)
    (hmin : ∀ i, i < G.numRows → i ∉ P → (degrees G.indices G.indptr G.numRows).getD seed 0 ≤ (degrees G.indices G.indptr G.numRows).getD i 0) :
    ¬ (search G (degrees G.indices G.indptr G.numRows) rev seed s).1 <
      (search G (degrees G.indices G.indptr G.numRows) rev seed s).2.1 := by
  obtain ⟨e, _⟩ := levels_eq ⟨hG.indptr, hG.cols⟩ hI (G.numRows + 1) (P ++ [seed]) _ P.length (rel_push hI h seed hs hn)
    (inv_seed hinv seed hn hmin) (by omega)
  have hN := h.N
  have e' : search G (degrees G.indices G.indptr G.numRows) rev seed s =
      levels G (degrees G.indices G.indptr G.numRows) rev (G.numRows + 1) P.length (P ++ [seed]).length
        { s with inds := s.inds.set (rev.getD seed 0) (-1), order := s.order.set s.N seed, N := s.N + 1 } := by
    unfold search
    simp only [Nat.add_sub_cancel, List.length_append, List.length_singleton, hN]
  rw [e', e]
  exact Nat.lt_irrefl _

/-- A star with centre 2 and leaves 0, 3, 5, an edge 3-5, and a separate edge 1-4. -/
def sample : Graph := ⟨[0, 1, 2, 5, 7, 8, 10], [2, 4, 0, 5, 3, 2, 5, 1, 3, 2], 6, 6⟩

example : WellFormed sample :=
  ⟨⟨by decide, by decide, by decide, by unfold sample; decide⟩, by decide⟩
example : degreeList sample = [1, 1, 3, 2, 1, 2] := by decide
example : ArgSort (degreeList sample) [4, 0, 1, 5, 3, 2] := by
  refine ⟨by decide, ?_⟩
  have : ∀ b, b < 6 → ∀ a, a < b → (degreeList sample).getD ([4, 0, 1, 5, 3, 2].getD a 0) 0 ≤ (degreeList sample).getD ([4, 0, 1, 5, 3, 2].getD b 0) 0 := by decide
  exact fun a b h1 h2 => this b h2 a h1
example : ArgSort [4, 0, 1, 5, 3, 2] [1, 2, 5, 4, 0, 3] := by
  refine ⟨by decide, ?_⟩
  have : ∀ b, b < 6 → ∀ a, a < b → ([4, 0, 1, 5, 3, 2] : List Nat).getD ([1, 2, 5, 4, 0, 3].getD a 0) 0 ≤ ([4, 0, 1, 5, 3, 2] : List Nat).getD ([1, 2, 5, 4, 0, 3].getD b 0) 0 := by decide
  exact fun a b h1 h2 => this b h2 a h1
example : cuthillMcKee sample [4, 0, 1, 5, 3, 2] [1, 2, 5, 4, 0, 3] [9, 9, 9, 9, 9, 9] [7, 7, 7, 7, 7, 7] false = [4, 1, 0, 2, 5, 3] := by
  decide +kernel
example : cuthillMcKee sample [4, 0, 1, 5, 3, 2] [1, 2, 5, 4, 0, 3] [9, 9, 9, 9, 9, 9] [7, 7, 7, 7, 7, 7] true = [3, 5, 2, 0, 1, 4] := by
  decide +kernel

end PyNucleus.Props.C18
