import Verif.Proof.Entries
import Verif.Props.C10

/-!
# C12 Entry access laws of CSR matrices

Full property: for a sorted CSR matrix `getEntry` returns the matrix entry; `setEntry` and
`addToEntry` at a stored position change that entry and no other; outside the pattern the call
is rejected and nothing changes.  The last part is false as to "rejected": see
`setEntry_absent` and `silently_ignored`.

`Stored A I J`: column `J` is among the stored columns of row `I`.
-/

namespace PyNucleus.Props.C12

open PyNucleus.CSR PyNucleus.Spec PyNucleus.Loops

variable {K : Type}

/-- `getEntry` is the matrix entry, for stored and for absent positions. -/
theorem getEntry_correct [AddCommMonoid K] (A : CSR K) (hA : A.Valid) (hs : A.Sorted) (I J : Nat)
    (hI : I < A.numRows) : getEntry A I J = A.entry I J := by
  rw [getEntry_eq]
  rcases findEntry_spec A hA hs I J hI with ⟨k, h1, h2⟩ | ⟨h1, h2⟩
  · rw [h1, entry_at A hA hs I J k hI h2]
  · rw [h1, entry_absent A hA I J hI h2]

/-- Unsorted rows with fewer than 20 entries and without repeated columns are also read
correctly. -/
theorem getEntry_unsorted_short [AddCommMonoid K] (A : CSR K) (hA : A.Valid) (I J : Nat)
    (hI : I < A.numRows) (hshort : (A.row I).length < 20)
    (hnd : ((A.row I).map Prod.fst).Nodup) : getEntry A I J = A.entry I J := by
  have hlen : (A.row I).length = A.indptr.getD (I + 1) 0 - A.indptr.getD I 0 :=
    (split_row A.indptr A.numRows (A.indices.zip A.data)
      (by rw [zip_length A hA]; exact hA.indptr) I hI).2.2
  have hm := hA.indptr.mono I hI
  unfold getEntry
  simp only
  rw [if_pos (by omega)]
  rcases scanRow_spec A.indices J (A.indptr.getD (I + 1) 0 - A.indptr.getD I 0) (A.indptr.getD I 0)
    with ⟨k, h1, h2, h3, h4, _⟩ | ⟨h1, h2⟩
  · rw [h1]
    have hr := row_getElem? A hA I hI k h2 (by omega)
    rw [h4] at hr
    exact (sum_filter_nodup J _ _ _ hnd hr).symm
  · rw [h1, entry_absent A hA I J hI fun k hk => h2 k hk.1 (by have := hk.2.1; omega) hk.2.2]

/-- `setEntry` at a stored position: succeeds, keeps pattern and shape, sets that entry and no
other. -/
theorem setEntry_correct [AddCommMonoid K] (A : CSR K) (hA : A.Valid) (hs : A.Sorted) (I J : Nat)
    (hI : I < A.numRows) (v : K) (h : Stored A I J) :
    ∃ B, setEntry A I J v = some B ∧ B.Valid ∧ B.Sorted ∧
      B.indptr = A.indptr ∧ B.indices = A.indices ∧ B.numRows = A.numRows ∧ B.numCols = A.numCols ∧
      ∀ I' J', I' < A.numRows →
        B.entry I' J' = if I' = I ∧ J' = J then v else A.entry I' J' := by
  rw [setEntry_eq]
  rcases findEntry_spec A hA hs I J hI with ⟨k, h1, h2⟩ | ⟨_, h2⟩
  · have hk := at_lt A hA hI h2
    obtain ⟨g1, g2, g3⟩ := entry_update A hA hs I J k hI h2 (A.data.set k v) v (by simp)
      (fun m => by
        rw [getD_set]
        by_cases hm : m = k
        · subst hm; rw [if_pos ⟨rfl, hk⟩, if_pos rfl]
        · rw [if_neg (fun hh => hm hh.1.symm), if_neg hm])
    rw [h1]
    exact ⟨_, rfl, g1, g2, rfl, rfl, rfl, rfl, g3⟩
  · obtain ⟨k, hk⟩ := (stored_iff A hA I J hI).1 h
    exact absurd hk (h2 k)

/-- `addToEntry` at a stored position adds to that entry and to no other. -/
theorem addToEntry_correct [AddCommMonoid K] (A : CSR K) (hA : A.Valid) (hs : A.Sorted) (I J : Nat)
    (hI : I < A.numRows) (v : K) (h : Stored A I J) :
    let B := addToEntry A I J v
    B.Valid ∧ B.Sorted ∧
      B.indptr = A.indptr ∧ B.indices = A.indices ∧ B.numRows = A.numRows ∧ B.numCols = A.numCols ∧
      ∀ I' J', I' < A.numRows →
        B.entry I' J' = if I' = I ∧ J' = J then A.entry I J + v else A.entry I' J' := by
  simp only
  rw [addToEntry_eq]
  rcases findEntry_spec A hA hs I J hI with ⟨k, h1, h2⟩ | ⟨_, h2⟩
  · have hk := at_lt A hA hI h2
    obtain ⟨g1, g2, g3⟩ := entry_update A hA hs I J k hI h2 (A.data.modify k (· + v))
      (A.entry I J + v) (by simp)
      (fun m => by
        rw [getD_modify]
        by_cases hm : m = k
        · subst hm; rw [if_pos ⟨rfl, hk⟩, if_pos rfl, entry_at A hA hs I J m hI h2]
        · rw [if_neg (fun hh => hm hh.1.symm), if_neg hm])
    rw [h1]
    exact ⟨g1, g2, rfl, rfl, rfl, rfl, g3⟩
  · obtain ⟨k, hk⟩ := (stored_iff A hA I J hI).1 h
    exact absurd hk (h2 k)

/-- `addToEntry` outside the pattern changes nothing. -/
theorem addToEntry_absent [AddCommMonoid K] (A : CSR K) (hA : A.Valid) (hs : A.Sorted) (I J : Nat)
    (hI : I < A.numRows) (v : K) (h : ¬ Stored A I J) : addToEntry A I J v = A := by
  rw [addToEntry_eq]
  rcases findEntry_spec A hA hs I J hI with ⟨k, _, h2⟩ | ⟨h1, _⟩
  · exact absurd ((stored_iff A hA I J hI).2 ⟨k, h2⟩) h
  · rw [h1]

/-- `setEntry` outside the pattern: never changes the matrix; raises exactly if the row stores
at least 20 entries (the full property asks for a rejection in all cases). -/
theorem setEntry_absent_partial [AddCommMonoid K] (A : CSR K) (hA : A.Valid) (hs : A.Sorted)
    (I J : Nat) (hI : I < A.numRows) (v : K) (h : ¬ Stored A I J) :
    setEntry A I J v = if (A.row I).length < 20 then some A else none := by
  have hlen : (A.row I).length = A.indptr.getD (I + 1) 0 - A.indptr.getD I 0 :=
    (split_row A.indptr A.numRows (A.indices.zip A.data)
      (by rw [zip_length A hA]; exact hA.indptr) I hI).2.2
  rw [setEntry_eq, hlen]
  rcases findEntry_spec A hA hs I J hI with ⟨k, _, h2⟩ | ⟨h1, _⟩
  · exact absurd ((stored_iff A hA I J hI).2 ⟨k, h2⟩) h
  · rw [h1]

/-! ### Histories of calls -/

/-- A call that writes an entry. -/
inductive Op (K : Type) where
  | set (I J : Nat) (v : K)
  | add (I J : Nat) (v : K)

def Op.row : Op K → Nat
  | .set I _ _ => I
  | .add I _ _ => I

/-- The matrix after the call (a raised exception leaves it as it is). -/
def step [Add K] (A : CSR K) : Op K → CSR K
  | .set I J v => (setEntry A I J v).getD A
  | .add I J v => addToEntry A I J v

/-- Abstract matrix: a function, with writes restricted to the pattern `S`. -/
def absStep [Add K] (S : Nat → Nat → Bool) (M : Nat → Nat → K) : Op K → Nat → Nat → K
  | .set I J v => fun i j => if (i = I ∧ j = J) ∧ S I J then v else M i j
  | .add I J v => fun i j => if (i = I ∧ j = J) ∧ S I J then M i j + v else M i j

/-- After any sequence of `setEntry`/`addToEntry` calls on rows of the matrix, `getEntry` at
every position returns what the abstract matrix holds. -/
theorem history_correct [AddCommMonoid K] (A : CSR K) (hA : A.Valid) (hs : A.Sorted)
    (ops : List (Op K)) (hops : ∀ o ∈ ops, o.row < A.numRows) (I J : Nat) (hI : I < A.numRows) :
    getEntry (ops.foldl step A) I J =
      ops.foldl (absStep fun i j => decide (j ∈ (A.row i).map Prod.fst)) A.entry I J := by
  have key : ∀ (S : Nat → Nat → Bool) (ops : List (Op K)) (B : CSR K) (M : Nat → Nat → K),
      B.Valid → B.Sorted → (∀ o ∈ ops, o.row < B.numRows) →
      (∀ i j, i < B.numRows → (S i j = true ↔ Stored B i j)) →
      (∀ i j, i < B.numRows → B.entry i j = M i j) →
      ∀ i j, i < B.numRows → getEntry (ops.foldl step B) i j = ops.foldl (absStep S) M i j := by
    intro S ops
    induction ops with
    | nil => intro B M hB hBs _ _ hM i j hi; rw [List.foldl_nil, getEntry_correct B hB hBs i j hi]; exact hM i j hi
    | cons o ops ih =>
      intro B M hB hBs hr hS hM i j hi
      rw [List.foldl_cons, List.foldl_cons]
      have hrow := hr o (by simp)
      have hr' : ∀ o' ∈ ops, o'.row < B.numRows := fun o' h => hr o' (List.mem_cons_of_mem _ h)
      have stored_eq : ∀ C : CSR K, C.Valid → C.indptr = B.indptr → C.indices = B.indices →
          ∀ i j, Stored C i j ↔ Stored B i j := by
        intro C hC h1 h2 i j
        unfold Stored
        rw [row_fst C hC, row_fst B hB, h1, h2]
      cases o with
      | set I0 J0 v =>
        by_cases hst : Stored B I0 J0
        · obtain ⟨C, c1, c2, c3, c4, c5, c6, c7, c8⟩ := setEntry_correct B hB hBs I0 J0 hrow v hst
          have e : step B (.set I0 J0 v) = C := by simp [step, c1]
          rw [e]
          refine ih C _ c2 c3 (by rw [c6]; exact hr')
            (fun a b hab => (hS a b (by omega)).trans (stored_eq C c2 c4 c5 a b).symm) ?_ i j (by omega)
          intro a b hab
          rw [c8 a b (by omega), absStep, hM a b (by omega), (hS I0 J0 hrow).2 hst]
          simp
        · have hfalse : S I0 J0 = false := by
            cases h : S I0 J0 with
            | false => rfl
            | true => exact absurd ((hS I0 J0 hrow).1 h) hst
          have e : step B (.set I0 J0 v) = B := by
            rw [step, setEntry_absent_partial B hB hBs I0 J0 hrow v hst]
            split <;> rfl
          rw [e]
          refine ih B _ hB hBs hr' hS (fun a b hab => ?_) i j hi
          rw [absStep, hfalse, hM a b hab]; simp
      | add I0 J0 v =>
        by_cases hst : Stored B I0 J0
        · obtain ⟨c2, c3, c4, c5, c6, c7, c8⟩ := addToEntry_correct B hB hBs I0 J0 hrow v hst
          rw [show step B (.add I0 J0 v) = addToEntry B I0 J0 v from rfl]
          refine ih _ _ c2 c3 (by rw [c6]; exact hr')
            (fun a b hab => (hS a b (by omega)).trans (stored_eq _ c2 c4 c5 a b).symm) ?_ i j (by omega)
          intro a b hab
          rw [c8 a b (by omega), absStep, hM a b (by omega), (hS I0 J0 hrow).2 hst, hM I0 J0 hrow]
          by_cases hab' : a = I0 ∧ b = J0
          · obtain ⟨rfl, rfl⟩ := hab'; simp
          · simp [hab']
        · have hfalse : S I0 J0 = false := by
            cases h : S I0 J0 with
            | false => rfl
            | true => exact absurd ((hS I0 J0 hrow).1 h) hst
          rw [show step B (.add I0 J0 v) = B from addToEntry_absent B hB hBs I0 J0 hrow v hst]
          refine ih B _ hB hBs hr' hS (fun a b hab => ?_) i j hi
          rw [absStep, hfalse, hM a b hab]; simp
  refine key _ ops A A.entry hA hs hops (fun i j _ => ?_) (fun _ _ _ => rfl) I J hI
  rw [decide_eq_true_iff]; rfl

/-! ### Concrete cases -/

/-- `[[5, 0, 2], [0, 3, 0]]`, sorted. -/
def sample : CSR ℤ := sortMatrix C10.unsorted

theorem sample_valid : sample.Valid :=
  (C10.sort_rows C10.unsorted ⟨⟨by decide, by decide, by decide, by decide⟩, by decide, by decide⟩).2.1

theorem sample_sorted : sample.Sorted :=
  (C10.isSorted_correct sample sample_valid).1 (by decide +kernel)

example : getEntry sample 0 2 = 2 ∧ getEntry sample 0 1 = 0 ∧
    getEntry (addToEntry sample 0 2 5) 0 2 = 7 := by decide +kernel

/-- The property fails: an entry outside the pattern of a short row is dropped without an
error. -/
theorem silently_ignored : ∃ (A : CSR ℤ) (I J : Nat) (v : ℤ), A.Valid ∧ A.Sorted ∧
    I < A.numRows ∧ J < A.numCols ∧ ¬ Stored A I J ∧ v ≠ 0 ∧
    setEntry A I J v = some A := by
  refine ⟨sample, 0, 1, 4, sample_valid, sample_sorted, by decide, by decide, ?_, by decide, ?_⟩
  · unfold Stored; decide +kernel
  · rw [setEntry_absent_partial sample sample_valid sample_sorted 0 1 (by decide) 4
      (by unfold Stored; decide +kernel), if_pos (by decide +kernel)]

end PyNucleus.Props.C12
