import Verif.Proof.OpProgram
import Verif.Proof.OpResidual
import Mathlib.Algebra.Field.Rat

/-! # C19 Operator algebra is a homomorphism -/

namespace PyNucleus.Props.C19

open PyNucleus.Spec PyNucleus.Blas PyNucleus.OpAlgebra

variable {K : Type} [Field K] [DecidableEq K]

/-- State before the first line. -/
def start (h : Heap K) (n : Nat) : St K := ⟨[], h, n⟩

private theorem inv_start (P : Prop) (h : Heap K) (n : Nat) : Inv P (start h n) [] :=
  ⟨rfl, fun _ _ _ h _ => by simp [start] at h⟩

/-- **Full statement (programs with `.T` included).** Kept for reference: it is false, see
`transpose_of_zero_fails`, `transpose_twice_fails` and `transpose_of_rectangular_sum_fails`. -/
def Statement : Prop :=
  ∀ (K : Type) [Field K] [DecidableEq K] (junk : Nat → Nat → List K), (∀ a m, (junk a m).length = m) →
    ∀ (prog : List (Stmt K)) (ds : List (Den K)), (∀ s ∈ prog, s.Valid) → denote prog [] = some ds →
    ∀ (h0 : Heap K) (n : Nat), ∃ st, exec junk prog (start h0 n) = some st ∧
    ∀ (k : Nat) (op : Op K) (d : Den K), st.vars[k]? = some op → ds[k]? = some d →
    ∀ (h : Heap K), (∀ a, a < st.next → (h a).length = (st.heap a).length) →
    ∀ (x y : Nat), st.next ≤ x → st.next ≤ y → x ≠ y → (h x).length = d.1.2 → (h y).length = d.1.1 →
    ∃ h', run op false false x y h = some h' ∧ ∀ i, i < d.1.1 → (h' y).getD i 0 = mulVec d.1.2 d.2 (h x) i

/-- Every operator created by a program of sums, differences, scalings, negations and products,
with objects used any number of times, applies the matrix that the program denotes.  The old
contents of the output and of all buffers do not matter. -/
theorem program_matvec_partial (junk : Nat → Nat → List K) (hj : ∀ a m, (junk a m).length = m) (prog : List (Stmt K))
    (ds : List (Den K)) (hv : ∀ s ∈ prog, s.Valid) (hT : ∀ s ∈ prog, s.NoT) (hd : denote prog [] = some ds)
    (h0 : Heap K) (n : Nat) :
    ∃ st, exec junk prog (start h0 n) = some st ∧ st.vars.length = ds.length ∧
    ∀ (k : Nat) (op : Op K) (d : Den K), st.vars[k]? = some op → ds[k]? = some d →
    ∀ (h : Heap K), (∀ a, a < st.next → (h a).length = (st.heap a).length) →
    ∀ (x y : Nat), st.next ≤ x → st.next ≤ y → x ≠ y → (h x).length = d.1.2 → (h y).length = d.1.1 →
    ∃ h', run op false false x y h = some h' ∧ (h' y).length = d.1.1 ∧ h' x = h x ∧
      ∀ i, i < d.1.1 → (h' y).getD i 0 = mulVec d.1.2 d.2 (h x) i := by
  obtain ⟨st, e, I⟩ := exec_ok (P := True) junk hj prog _ [] ds (inv_start True h0 n) hv (fun _ => hT) hd
  refine ⟨st, e, I.len, fun k op d ho hd h hh x y hx hy hxy lx ly => ?_⟩
  have m := I.means k op d ho hd
  have nb : ∀ a, st.next ≤ a → a ∉ op.bufs := fun a ha hb => by have := m.fresh a hb; omega
  obtain ⟨h', e', g⟩ := claim_all op false false x y h
    ⟨m.wf, m.us trivial, sized_congr op (fun a ha => hh a (m.fresh a ha)) m.sized, nb x hx, nb y hy, hxy,
      by rw [lx, ← m.shape]; rfl, by rw [ly, ← m.shape]; rfl⟩
  refine ⟨h', e', by rw [g.len, ly], g.frame x hxy (nb x hx), fun i hi => ?_⟩
  rw [g.val i (by show i < op.shape.1; rw [m.shape]; exact hi)]
  simp only [Bool.false_eq_true, if_false, zero_add, mv, inLen, m.shape, m.mat]

/-- With `.T`: every operator whose `.T`s are applied to operators with a working `matvecTrans`
(`Usable`) applies its matrix, accumulates it with `matvec_no_overwrite`, and computes the residual. -/
theorem program_usable_partial (junk : Nat → Nat → List K) (hj : ∀ a m, (junk a m).length = m) (prog : List (Stmt K))
    (ds : List (Den K)) (hv : ∀ s ∈ prog, s.Valid) (hd : denote prog [] = some ds) (h0 : Heap K) (n : Nat) :
    ∃ st, exec junk prog (start h0 n) = some st ∧ st.vars.length = ds.length ∧
    ∀ (k : Nat) (op : Op K) (d : Den K), st.vars[k]? = some op → ds[k]? = some d → op.Usable →
    ∀ (h : Heap K), (∀ a, a < st.next → (h a).length = (st.heap a).length) →
    ∀ (x y b : Nat), st.next ≤ x → st.next ≤ y → st.next ≤ b → x ≠ y → b ≠ y →
      (h x).length = d.1.2 → (h y).length = d.1.1 → (h b).length = d.1.1 →
    (∃ h', run op false false x y h = some h' ∧
      ∀ i, i < d.1.1 → (h' y).getD i 0 = mulVec d.1.2 d.2 (h x) i) ∧
    (∃ h', run op false true x y h = some h' ∧
      ∀ i, i < d.1.1 → (h' y).getD i 0 = (h y).getD i 0 + mulVec d.1.2 d.2 (h x) i) ∧
    (∃ h', residual op x b y h = some h' ∧
      ∀ i, i < d.1.1 → (h' y).getD i 0 = (h b).getD i 0 - mulVec d.1.2 d.2 (h x) i) := by
  obtain ⟨st, e, I⟩ := exec_ok (P := False) junk hj prog _ [] ds (inv_start False h0 n) hv (fun hF => hF.elim) hd
  refine ⟨st, e, I.len, fun k op d ho hd us h hh x y b hx hy hb hxy hby lx ly lb => ?_⟩
  have m := I.means k op d ho hd
  have nb : ∀ a, st.next ≤ a → a ∉ op.bufs := fun a ha hb => by have := m.fresh a hb; omega
  have pre : Pre op false x y h := ⟨m.wf, us, sized_congr op (fun a ha => hh a (m.fresh a ha)) m.sized, nb x hx, nb y hy, hxy,
      by rw [lx, ← m.shape]; rfl, by rw [ly, ← m.shape]; rfl⟩
  have hmv : ∀ i, mv op false (h x) i = mulVec d.1.2 d.2 (h x) i := fun i => by
    simp only [Bool.false_eq_true, if_false, mv, inLen, m.shape, m.mat]
  have hlt : ∀ i, i < d.1.1 → i < op.shape.1 := fun i hi => by rw [m.shape]; exact hi
  refine ⟨?_, ?_, ?_⟩
  · obtain ⟨h', e', g⟩ := claim_all op false false x y h pre
    exact ⟨h', e', fun i hi => by rw [g.val i (hlt i hi), hmv]; simp⟩
  · obtain ⟨h', e', g⟩ := claim_all op false true x y h pre
    exact ⟨h', e', fun i hi => by rw [g.val i (hlt i hi), hmv]; simp⟩
  · obtain ⟨h', e', g⟩ := residual_all op x b y h pre hby (nb b hb) (by rw [lb, m.shape])
    exact ⟨h', e', fun i hi => by rw [g.val i (hlt i hi), hmv]⟩

/-- `matvecTrans` of the operators for which it works (`TransOK`) applies the transpose. -/
theorem program_trans_partial (junk : Nat → Nat → List K) (hj : ∀ a m, (junk a m).length = m) (prog : List (Stmt K))
    (ds : List (Den K)) (hv : ∀ s ∈ prog, s.Valid) (hd : denote prog [] = some ds) (h0 : Heap K) (n : Nat) :
    ∃ st, exec junk prog (start h0 n) = some st ∧
    ∀ (k : Nat) (op : Op K) (d : Den K), st.vars[k]? = some op → ds[k]? = some d → op.TransOK →
    ∀ (h : Heap K), (∀ a, a < st.next → (h a).length = (st.heap a).length) →
    ∀ (x y : Nat), st.next ≤ x → st.next ≤ y → x ≠ y → (h x).length = d.1.1 → (h y).length = d.1.2 →
    ∃ h', run op true false x y h = some h' ∧
      ∀ i, i < d.1.2 → (h' y).getD i 0 = mulVec d.1.1 (fun i j => d.2 j i) (h x) i := by
  obtain ⟨st, e, I⟩ := exec_ok (P := False) junk hj prog _ [] ds (inv_start False h0 n) hv (fun hF => hF.elim) hd
  refine ⟨st, e, fun k op d ho hd us h hh x y hx hy hxy lx ly => ?_⟩
  have m := I.means k op d ho hd
  have nb : ∀ a, st.next ≤ a → a ∉ op.bufs := fun a ha hb => by have := m.fresh a hb; omega
  obtain ⟨h', e', g⟩ := claim_all op true false x y h ⟨m.wf, us, sized_congr op (fun a ha => hh a (m.fresh a ha)) m.sized,
      nb x hx, nb y hy, hxy, by rw [lx, ← m.shape]; rfl, by rw [ly, ← m.shape]; rfl⟩
  refine ⟨h', e', fun i hi => ?_⟩
  rw [g.val i (by show i < op.shape.2; rw [m.shape]; exact hi)]
  simp only [Bool.false_eq_true, if_false, if_true, zero_add, mv, inLen, m.shape, m.mat]

/-! ### Where the statement fails -/

/-- `(0*A).T` cannot be applied, whatever `A`, `x` and `y` are. -/
theorem transpose_of_zero_fails (A : CSR K) (x y z : Nat) (h : Heap K) :
    run (transpose (rmul 0 (.csr A) z)) false false x y h = none := by
  simp [rmul, transpose, run]

/-- `(A.T).T` cannot be applied through `matvecTrans`. -/
theorem transpose_twice_fails (A : Op K) (x y : Nat) (h : Heap K) :
    run (transpose (transpose A)) false false x y h = none := rfl

/-- Example matrix. -/
def exA : Dense ℚ := ⟨[[1, 2], [3, 4]], 2, 2⟩
/-- Example of a wide matrix. -/
def exW : Dense ℚ := ⟨[[1, 2, 3], [4, 5, 6]], 2, 3⟩

/-- Junk contents. -/
def exJunk (a m : Nat) : List ℚ := List.replicate m (a + 7 : ℚ)

/-- Program `A, B = 2*A, C = A + B, D = C*C (shared), E = D - A`, with C used twice. -/
def exProg : List (Stmt ℚ) := [.dense exA, .rmul 2 0, .add 0 1, .matmul 2 2, .sub 3 0, .neg 4]

/-- Result of applying object `k` to `v` with the output initialised to `w`. -/
def exRun (prog : List (Stmt ℚ)) (k : Nat) (v w : List ℚ) : Option (List ℚ) := do
  let st ← exec exJunk prog (start (fun _ => []) 0)
  let op ← st.vars[k]?
  let h ← run op false false 100 101 (put (put st.heap 100 v) 101 w)
  some (h 101)

example : (denote exProg []).isSome = true := by decide +kernel
example : exRun exProg 2 [1, 1] [50, 60] = some [9, 21] := by decide +kernel
example : exRun exProg 3 [1, 1] [50, 60] = some [153, 333] := by decide +kernel
example : exRun exProg 4 [1, 1] [50, 60] = some [150, 326] := by decide +kernel
example : exRun exProg 5 [1, 1] [50, 60] = some [-150, -326] := by decide +kernel
example : ∀ s ∈ exProg, s.Valid := by simp [exProg, Stmt.Valid]
example : ∀ s ∈ exProg, s.NoT := by simp [exProg, Stmt.NoT]

/-- `.T` of a square matrix, used in a sum. -/
def exProgT : List (Stmt ℚ) := [.dense exA, .T 0, .add 0 1]
example : exRun exProgT 2 [1, 0] [50, 60] = some [2, 5] := by decide +kernel
example : (add (.dense exA) (transpose (.dense exA)) 0 : Op ℚ).Usable := by
  show True ∧ exA.numRows ≤ exA.numCols
  decide

/-- `(3*W + 2*W).T` of a wide matrix: the buffer of the sum has the length of the rows and is too short. -/
theorem transpose_of_rectangular_sum_fails :
    exRun [.dense exW, .rmul 3 0, .rmul 2 0, .add 1 2, .T 3] 4 [1, 1] [0, 0, 0] = none := by decide +kernel

/-- The full statement is false. -/
theorem statement_false : ¬ Statement := by
  intro H
  have h := H ℚ exJunk (by simp [exJunk]) [.ident 1 1, .T 0] _ (by simp [Stmt.Valid]) rfl (fun _ => []) 0
  obtain ⟨st, e, hst⟩ := h
  have e' : exec exJunk [.ident 1 1, .T 0] (start (fun _ => []) 0) = some
    ⟨[.ident 1 1, .trans (.ident 1 1)], _, 4⟩ := rfl
  rw [e'] at e
  simp only [Option.some.injEq] at e
  subst e
  obtain ⟨h', hr, _⟩ := hst 1 _ _ rfl rfl
    (fun a => if a < 4 then (put (put (put (put (fun _ => []) 0 (exJunk 0 0)) 1 (exJunk 1 0)) 2 (exJunk 2 0)) 3 (exJunk 3 0)) a else [0])
    (fun a ha => by
      simp only [if_pos ha]; rfl) 4 5 (by decide) (by decide) (by decide) rfl rfl
  simp [run] at hr

end PyNucleus.Props.C19
