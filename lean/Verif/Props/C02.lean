import Verif.Proof.TupleDictIter
import Mathlib.Data.List.Perm.Subperm

/-!
# C02 Tuple dictionary behaves as a finite map
-/

namespace PyNucleus.Props.C02

open PyNucleus.TupleDict PyNucleus.Spec PyNucleus.SortedRow

variable {V : Type} [OrOp V]

/-- For every history of calls on existing rows in which no row outgrows the counters, the
calls never touch memory outside the allocation, every returned value is the one of the
abstract map, and `nnz` is the number of keys of the map. -/
theorem dict_refines_map (c : Config V) (n : Nat) (hinc : 0 < c.lengthInc)
    (ops : List (Op V)) (hrow : ∀ op ∈ ops, opRow op < n)
    (hfit : ∀ pre, pre <+: ops → Fits c (edgeRun c.mode c.invalid (fun _ => none) pre).1) :
    ∃ d, run c (init c n) ops = some (d, (edgeRun c.mode c.invalid (fun _ => none) ops).2) ∧
      ∃ keys : List (Nat × Int), keys.Nodup ∧
        (∀ k, k ∈ keys ↔ (edgeRun c.mode c.invalid (fun _ => none) ops).1 k ≠ none) ∧
        d.nnz = keys.length := by
  obtain ⟨d, h1, h2⟩ := run_rel c n hinc ops _ _ (rel_init c n) hrow hfit
  refine ⟨d, h1, (itemsFrom d.rows 0).map Prod.fst, ?_, ?_, ?_⟩
  · unfold List.Nodup
    rw [List.pairwise_map]
    refine (itemsFrom_sorted d.rows h2.wf _ 0 rfl).imp ?_
    intro a b hab e
    rw [e] at hab
    rcases hab with h | h <;> omega
  · intro k
    rw [List.mem_map]
    constructor
    · rintro ⟨⟨k', v⟩, hm, rfl⟩
      obtain ⟨_, hk, hv⟩ := (itemsFrom_mem d.rows k' v _ 0 rfl).1 hm
      have := (h2.repr k'.1 hk k'.2 v).1 hv
      simp only at this ⊢
      rw [this]; simp
    · intro hk
      obtain ⟨v, hv⟩ := Option.ne_none_iff_exists'.1 hk
      by_cases hlt : k.1 < d.rows.length
      · exact ⟨(k, v), (itemsFrom_mem d.rows k v _ 0 rfl).2
          ⟨Nat.zero_le _, hlt, (h2.repr k.1 hlt k.2 v).2 hv⟩, rfl⟩
      · have := h2.out k.1 (by rw [← h2.len]; omega) k.2
        exact absurd this hk
  · rw [List.length_map, itemsFrom_length d h2.wf]
    exact h2.nnz

/-- Reading back: with default hit behaviour the value of the first `enterValue` of a key is
returned by every later `enterValue` and `getValue` of that key as long as it is not
removed. -/
theorem first_value_wins (c : Config V) (n : Nat) (hinc : 0 < c.lengthInc)
    (hmode : c.mode = .keep) (pre mid : List (Op V)) (I : Nat) (J : Int) (v : V)
    (hrow : ∀ op ∈ pre ++ [Op.enter I J v] ++ mid ++ [Op.get I J], opRow op < n)
    (hfit : ∀ p, p <+: pre ++ [Op.enter I J v] ++ mid ++ [Op.get I J] →
      Fits c (edgeRun c.mode c.invalid (fun _ => none) p).1)
    (habsent : (edgeRun c.mode c.invalid (fun _ => none) pre).1 (I, J) = none)
    (hmid : ∀ op ∈ mid, op ≠ Op.remove I J) :
    ∃ d outs, run c (init c n) (pre ++ [Op.enter I J v] ++ mid ++ [Op.get I J]) =
      some (d, outs ++ [v]) := by
  obtain ⟨d, h1, _⟩ := run_rel c n hinc _ _ _ (rel_init c n) hrow hfit
  have happ : ∀ (a b : List (Op V)) (m : EdgeMap V),
      edgeRun c.mode c.invalid m (a ++ b) =
        ((edgeRun c.mode c.invalid (edgeRun c.mode c.invalid m a).1 b).1,
         (edgeRun c.mode c.invalid m a).2 ++
          (edgeRun c.mode c.invalid (edgeRun c.mode c.invalid m a).1 b).2) := by
    intro a b
    induction a with
    | nil => intro m; rfl
    | cons o a ih => intro m; simp only [List.cons_append, edgeRun, ih]
  have hstay : ∀ (mid : List (Op V)) (m : EdgeMap V), m (I, J) = some v →
      (∀ op ∈ mid, op ≠ Op.remove I J) →
      (edgeRun c.mode c.invalid m mid).1 (I, J) = some v := by
    intro mid
    induction mid with
    | nil => intro m h _; exact h
    | cons o mid ih =>
      intro m h hne
      refine ih _ ?_ (fun op hop => hne op (List.mem_cons_of_mem _ hop))
      have ho := hne o (by simp)
      cases o with
      | enter I' J' w =>
        simp only [edgeStep, hmode]
        cases hm : m (I', J') with
        | none =>
          simp only [EdgeMap.put]
          split
          · rename_i e
            rw [e] at h
            rw [hm] at h; cases h
          · exact h
        | some old => exact h
      | remove I' J' =>
        simp only [edgeStep]
        have hkey : ¬ ((I, J) = (I', J')) := by
          intro e
          obtain ⟨rfl, rfl⟩ := Prod.mk.inj e
          exact ho rfl
        cases hm : m (I', J') with
        | none => exact h
        | some old => simp [EdgeMap.put, hkey, h]
      | get I' J' => exact h
  refine ⟨d, (edgeRun c.mode c.invalid (fun _ => none) (pre ++ [Op.enter I J v] ++ mid)).2, ?_⟩
  rw [h1, happ (pre ++ [Op.enter I J v] ++ mid)]
  congr 3
  simp only [edgeRun, edgeStep]
  congr 1
  rw [happ (pre ++ [Op.enter I J v]), happ pre]
  simp only
  rw [hstay mid _ ?_ hmid]
  · rfl
  · simp [edgeRun, edgeStep, habsent, EdgeMap.put]

/-- The dictionary used by the mesh code: 8 bit counters, default growth. -/
def sampleConfig : Config (BitVec 32) where
  W := 256
  initialLength := 0
  lengthInc := 3
  deleteHits := false
  logicalAndHits := false
  invalid := 0x7fffffff#32

def sampleOps : List (Op (BitVec 32)) :=
  [.enter 0 5 10#32, .enter 0 2 11#32, .enter 0 5 12#32, .remove 0 2, .get 0 2, .enter 1 7 13#32,
    .get 0 5]

/-- The hypotheses hold on a concrete history: a bound on the number of distinct columns
entered per row is enough. -/
theorem fits_of_bound (c : Config V) (ops : List (Op V)) (B : Nat) (hB : B + c.lengthInc ≤ c.W)
    (hlen : ops.length ≤ B) :
    ∀ pre, pre <+: ops → Fits c (edgeRun c.mode c.invalid (fun _ => none) pre).1 := by
  -- keys of the map were entered
  have key : ∀ (ops : List (Op V)) (m : EdgeMap V) (S : List (Nat × Int)),
      (∀ k, m k ≠ none → k ∈ S) →
      ∃ T : List (Nat × Int), T.length ≤ S.length + ops.length ∧
        ∀ k, (edgeRun c.mode c.invalid m ops).1 k ≠ none → k ∈ T := by
    intro ops
    induction ops with
    | nil => intro m S h; exact ⟨S, by simp, h⟩
    | cons o ops ih =>
      intro m S h
      have hstep : ∃ S' : List (Nat × Int), S'.length ≤ S.length + 1 ∧
          ∀ k, (edgeStep c.mode c.invalid m o).1 k ≠ none → k ∈ S' := by
        cases o with
        | enter I J w =>
          refine ⟨(I, J) :: S, by simp, ?_⟩
          intro k hk
          by_cases hkk : k = (I, J)
          · simp [hkk]
          · refine List.mem_cons_of_mem _ (h k ?_)
            intro hn
            apply hk
            simp only [edgeStep]
            cases hm : m (I, J) with
            | none => simp [EdgeMap.put, hkk, hn]
            | some old => cases c.mode <;> simp [EdgeMap.put, hkk, hn]
        | remove I J =>
          refine ⟨S, by simp, fun k hk => h k ?_⟩
          intro hn
          apply hk
          simp only [edgeStep]
          cases hm : m (I, J) <;> simp [EdgeMap.put, hn]
        | get I J => exact ⟨S, by simp, h⟩
      obtain ⟨S', hS', h'⟩ := hstep
      obtain ⟨T, hT, h''⟩ := ih _ S' h'
      exact ⟨T, by simp only [List.length_cons]; omega, h''⟩
  intro pre hpre I l hnd hl
  obtain ⟨T, hT, hkeys⟩ := key pre (fun _ => none) [] (by simp)
  have hsub : (l.map fun J => (I, J)) ⊆ T := by
    intro k hk
    obtain ⟨J, hJ, rfl⟩ := List.mem_map.1 hk
    exact hkeys _ (hl J hJ)
  have hnd' : (l.map fun J => (I, J)).Nodup := by
    unfold List.Nodup
    rw [List.pairwise_map]
    exact hnd.imp (fun h e => h (Prod.mk.inj e).2)
  have hle := (List.subperm_of_subset hnd' hsub).length_le
  rw [List.length_map] at hle
  have := hpre.length_le
  simp only [List.length_nil] at hT
  omega

example : ∀ pre, pre <+: sampleOps →
    Fits sampleConfig (edgeRun sampleConfig.mode sampleConfig.invalid (fun _ => none) pre).1 :=
  fits_of_bound sampleConfig sampleOps 7 (by decide) (by decide)

example : ∀ op ∈ sampleOps, opRow op < 2 := by decide

example : ((run sampleConfig (init sampleConfig 2) sampleOps).map Prod.snd) =
    some [10#32, 11#32, 10#32, 11#32, 0x7fffffff#32, 13#32, 10#32] := by decide

end PyNucleus.Props.C02
