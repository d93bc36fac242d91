import Verif.Model.Delayed

/-! # C23 Delayed construction -/

namespace PyNucleus.Props.C23

open PyNucleus.Delayed

variable {Key Val Op Q R : Type} [DecidableEq Key]

/-- Parameters after a call, if every value is stored. -/
def store (p : Key → Option Val) (kw : List (Key × Val)) : Key → Option Val :=
  kw.foldl (fun p kv k => if k = kv.1 then some kv.2 else p k) p

/-- Results of the operator that assembles anew for every request, from the current parameters. -/
def eager (E : Env Key Val Op Q R) : (Key → Option Val) → List (Call Key Val Q) → List (Option R)
  | _, [] => []
  | p, .setParams kw :: cs => none :: eager E (store p kw) cs
  | p, .use q :: cs =>
    (match E.assemble fun k => (p k).or (E.kwargs k) with
      | some a => if E.shape a = (E.rows, E.cols) then some (E.answer a q) else none
      | none => none) :: eager E p cs
  | p, .nnz :: cs =>
    (match E.assemble fun k => (p k).or (E.kwargs k) with
      | some a => if E.shape a = (E.rows, E.cols) then some (E.nnz a) else none
      | none => none) :: eager E p cs

/-- Equal arguments, as far as Python's `==` can tell, give the same operator. -/
def Respects (E : Env Key Val Op Q R) : Prop :=
  ∀ d d' : Key → Option Val, (∀ k, d k = d' k ∨ ∃ v w, d k = some v ∧ d' k = some w ∧ E.eqv v w = true) → E.assemble d = E.assemble d'

/-- The full property: also the number of non-zeros is that of the current operator. -/
def Transparent (E : Env Key Val Op Q R) : Prop :=
  ∀ cs : List (Call Key Val Q), run E start cs = eager E (fun _ => none) cs

private structure Inv (E : Env Key Val Op Q R) (s : St Key Val Op) (p : Key → Option Val) : Prop where
  close : ∀ k, s.params k = p k ∨ ∃ v w, s.params k = some v ∧ p k = some w ∧ E.eqv v w = true
  cached : s.constructed = true → ∃ a, s.A = some a ∧ E.assemble (merged E.kwargs s.params) = some a ∧ E.shape a = (E.rows, E.cols)

private theorem setParam_inv (E : Env Key Val Op Q R) (s : St Key Val Op) (p : Key → Option Val) (h : Inv E s p) (kv : Key × Val) :
    Inv E (setParam E s kv) fun k => if k = kv.1 then some kv.2 else p k := by
  have hset : Inv E { s with params := fun k => if k = kv.1 then some kv.2 else s.params k, constructed := false }
      fun k => if k = kv.1 then some kv.2 else p k := by
    refine ⟨fun k => ?_, fun hc => by cases hc⟩
    simp only
    split
    · exact Or.inl rfl
    · exact h.close k
  unfold setParam
  split
  · rename_i v hv
    split
    · rename_i he
      refine ⟨fun k => ?_, h.cached⟩
      split
      · rename_i hk
        subst hk
        exact Or.inr ⟨v, kv.2, hv, rfl, he⟩
      · exact h.close k
    · exact hset
  · exact hset

private theorem setParams_inv (E : Env Key Val Op Q R) (kw : List (Key × Val)) : ∀ (s : St Key Val Op) (p : Key → Option Val), Inv E s p →
    Inv E (kw.foldl (setParam E) s) (store p kw) := by
  induction kw with
  | nil => intro s p h; exact h
  | cons kv kw ih => intro s p h; exact ih _ _ (setParam_inv E s p h kv)

private theorem same_args (E : Env Key Val Op Q R) (hE : Respects E) (s : St Key Val Op) (p : Key → Option Val) (h : Inv E s p) :
    E.assemble (merged E.kwargs s.params) = E.assemble fun k => (p k).or (E.kwargs k) := by
  refine hE _ _ fun k => ?_
  unfold merged
  rcases h.close k with e | ⟨v, w, e1, e2, e3⟩
  · exact Or.inl (by rw [e])
  · exact Or.inr ⟨v, w, by rw [e1]; rfl, by rw [e2]; rfl, e3⟩

private theorem assure_inv (E : Env Key Val Op Q R) (s : St Key Val Op) (p : Key → Option Val) (h : Inv E s p) :
    Inv E (assure E s).1 p ∧
    ((assure E s).2 = true → ∃ a, (assure E s).1.A = some a ∧ E.assemble (merged E.kwargs s.params) = some a ∧ E.shape a = (E.rows, E.cols)) ∧
    ((assure E s).2 = false → ∀ a, E.assemble (merged E.kwargs s.params) = some a → E.shape a ≠ (E.rows, E.cols)) := by
  unfold assure
  by_cases hc : s.constructed = true
  · rw [if_pos hc]
    exact ⟨h, fun _ => h.cached hc, fun hf => by cases hf⟩
  · rw [if_neg hc]
    cases ha : E.assemble (merged E.kwargs s.params) with
    | none => exact ⟨⟨h.close, fun hc' => absurd hc' hc⟩, fun hf => (by cases hf), fun _ a e => by cases e⟩
    | some a =>
      simp only
      split
      · rename_i hs
        exact ⟨⟨h.close, fun _ => ⟨a, rfl, ha, hs⟩⟩, fun _ => ⟨a, rfl, rfl, hs⟩, fun hf => by cases hf⟩
      · rename_i hs
        exact ⟨⟨h.close, fun hc' => by cases hc'⟩, fun hf => (by cases hf), fun _ b e => by cases e; exact hs⟩

private theorem run_eager (E : Env Key Val Op Q R) (hE : Respects E) : ∀ (cs : List (Call Key Val Q)) (s : St Key Val Op)
    (p : Key → Option Val), Inv E s p → (∀ c ∈ cs, c ≠ .nnz) → run E s cs = eager E p cs := by
  intro cs
  induction cs with
  | nil => intro s p _ _; rfl
  | cons c cs ih =>
    intro s p h hn
    have hn' : ∀ c ∈ cs, c ≠ .nnz := fun c hc => hn c (List.mem_cons_of_mem _ hc)
    cases c with
    | setParams kw =>
      exact congrArg (List.cons none) (ih _ _ (setParams_inv E kw s p h) hn')
    | use q =>
      obtain ⟨h1, h2, h3⟩ := assure_inv E s p h
      have e := same_args E hE s p h
      show _ :: run E (assure E s).1 cs = _ :: eager E p cs
      rw [ih _ _ h1 hn']
      congr 1
      show (if (assure E s).2 then (assure E s).1.A.map (fun a => E.answer a q) else none) = _
      cases hb : (assure E s).2 with
      | true =>
        obtain ⟨a, a1, a2, a3⟩ := h2 hb
        rw [← e, a2, a1]
        simp [a3]
      | false =>
        rw [← e]
        cases ha : E.assemble (merged E.kwargs s.params) with
        | none => simp
        | some a => simp [h3 hb a ha]
    | nnz => exact absurd rfl (hn _ (List.mem_cons_self ..))

/-- Every sequence of calls other than `nnz` gives the results of the operator that is assembled anew
from the current parameters for every request, errors included. -/
theorem transparent_partial (E : Env Key Val Op Q R) (hE : Respects E) (cs : List (Call Key Val Q)) (hn : ∀ c ∈ cs, c ≠ .nnz) :
    run E start cs = eager E (fun _ => none) cs :=
  run_eager E hE cs start _ ⟨fun _ => Or.inl rfl, fun h => by cases h⟩ hn

/-- `nnz` is not transparent: it never constructs.  For every operator for which two parameter values give
different numbers of non-zeros, the number reported after a change of the parameter is the old one. -/
theorem nnz_is_stale (E : Env Key Val Op Q R) (k : Key) (v w : Val) (a b : Op)
    (hv : E.assemble (fun j => (if j = k then some v else none).or (E.kwargs j)) = some a)
    (hw : E.assemble (fun j => (if j = k then some w else none).or (E.kwargs j)) = some b)
    (ha : E.shape a = (E.rows, E.cols)) (hb : E.shape b = (E.rows, E.cols)) (hne : E.nnz a ≠ E.nnz b) (q : Q) :
    ¬ Transparent E := by
  intro h
  have := h [.setParams [(k, v)], .use q, .setParams [(k, w)], .nnz]
  have hs : assure E (⟨fun j => if j = k then some v else none, false, none, 0⟩ : St Key Val Op) =
      (⟨fun j => if j = k then some v else none, true, some a, 1⟩, true) := by
    unfold assure
    rw [if_neg (by simp)]
    have : merged E.kwargs (fun j => if j = k then some v else none) = fun j => (if j = k then some v else none).or (E.kwargs j) := rfl
    simp only [this, hv, ha, if_true]
  have h1 : (call E (start : St Key Val Op) (.setParams [(k, v)])).1 = ⟨fun j => if j = k then some v else none, false, none, 0⟩ := rfl
  have h2 : ∀ s : St Key Val Op, (call E s (.setParams [(k, w)])).1.A = s.A := by
    intro s
    show (setParam E s (k, w)).A = s.A
    unfold setParam
    split
    · split <;> rfl
    · rfl
  have h3 : store (store (fun _ => none) [(k, v)]) [(k, w)] = fun j => if j = k then some w else none := by
    funext j
    show (if j = k then some w else if j = k then some v else none) = _
    split <;> rfl
  simp only [run, eager, h1, List.cons.injEq, h3] at this
  obtain ⟨_, _, _, h4, _⟩ := this
  have h5 : (call E (⟨fun j => if j = k then some v else none, false, none, 0⟩ : St Key Val Op) (.use q)).1 = (assure E ⟨fun j => if j = k then some v else none, false, none, 0⟩).1 := rfl
  rw [h5, hs, hw] at h4
  simp only [hb, if_true] at h4
  have h6 := h2 (⟨fun j => if j = k then some v else none, true, some a, 1⟩ : St Key Val Op)
  have h7 : (call E (call E (⟨fun j => if j = k then some v else none, true, some a, 1⟩ : St Key Val Op) (.setParams [(k, w)])).1 .nnz).2 =
      some (E.nnz a) := by
    show ((call E (⟨fun j => if j = k then some v else none, true, some a, 1⟩ : St Key Val Op) (.setParams [(k, w)])).1.A.map E.nnz) = _
    rw [h6]; rfl
  rw [h7] at h4
  exact hne (Option.some.inj h4)

/-- The operator is assembled once: after a successful request, requests and parameters that compare equal
to the stored ones do not assemble again. -/
theorem builds_once (E : Env Key Val Op Q R) (s : St Key Val Op) (q : Q) (hs : (call E s (.use q)).2.isSome)
    (cs : List (Call Key Val Q))
    (hp : ∀ kw, .setParams kw ∈ cs → ∀ kv ∈ kw, ∃ v, s.params kv.1 = some v ∧ E.eqv v kv.2 = true) :
    (exec E (call E s (.use q)).1 cs).builds = (call E s (.use q)).1.builds := by
  have hc : (assure E s).1.constructed = true ∧ (assure E s).1.params = s.params := by
    have hs' : (if (assure E s).2 then (assure E s).1.A.map (fun a => E.answer a q) else none).isSome := hs
    unfold assure at hs' ⊢
    by_cases h : s.constructed = true
    · rw [if_pos h]; exact ⟨h, rfl⟩
    · rw [if_neg h] at hs' ⊢
      split at hs'
      · cases hs'
      · split at hs'
        · rename_i a ha hsh
          simp [hsh]
        · cases hs'
  have key : ∀ (cs : List (Call Key Val Q)) (t : St Key Val Op), t.constructed = true → t.params = s.params →
      (∀ kw, .setParams kw ∈ cs → ∀ kv ∈ kw, ∃ v, s.params kv.1 = some v ∧ E.eqv v kv.2 = true) → (exec E t cs) = t := by
    intro cs
    induction cs with
    | nil => intro t _ _ _; rfl
    | cons c cs ih =>
      intro t h1 h2 h3
      have hstep : (call E t c).1 = t := by
        cases c with
        | setParams kw =>
          have : ∀ kw : List (Key × Val), (∀ kv ∈ kw, ∃ v, s.params kv.1 = some v ∧ E.eqv v kv.2 = true) → kw.foldl (setParam E) t = t := by
            intro kw
            induction kw with
            | nil => intro _; rfl
            | cons kv kw ih' =>
              intro hk
              obtain ⟨v, e1, e2⟩ := hk kv (List.mem_cons_self ..)
              have : setParam E t kv = t := by unfold setParam; rw [h2, e1]; simp [e2]
              rw [List.foldl_cons, this]
              exact ih' fun kv' h => hk kv' (List.mem_cons_of_mem _ h)
          exact this kw (h3 kw (List.mem_cons_self ..))
        | use q' =>
          show (assure E t).1 = t
          unfold assure
          rw [if_pos h1]
        | nnz => rfl
      show exec E (call E t c).1 cs = t
      rw [hstep]
      exact ih t h1 h2 fun kw hkw => h3 kw (List.mem_cons_of_mem _ hkw)
  show (exec E (assure E s).1 cs).builds = (assure E s).1.builds
  rw [key cs _ hc.1 hc.2 hp]

/-! ### Example -/

/-- Assembly of the number given by parameter `0` (default `3`), failing on `9`; a request adds to it. -/
def demo : Env Nat Nat Nat Nat Nat :=
  ⟨fun k => if k = 0 then some 3 else none, fun d => match d 0 with | some 9 => none | some v => some v | none => none,
    fun _ => (1, 1), 1, 1, fun v w => v == w, fun a q => a + q, fun a => a⟩

example : Respects demo := by
  intro d d' h
  have : d 0 = d' 0 := by
    rcases h 0 with e | ⟨v, w, e1, e2, e3⟩
    · exact e
    · rw [e1, e2, (show v = w by simpa [demo] using e3)]
  simp only [demo, this]

example : run demo start [.use 10, .setParams [(0, 5)], .use 10, .setParams [(0, 9)], .use 1, .setParams [(0, 5)], .use 2] =
    [some 13, none, some 15, none, none, none, some 7] := by decide
/-- `nnz` before construction, and after a change. -/
example : run demo start [.nnz, .use 0, .nnz, .setParams [(0, 5)], .nnz] = [none, some 3, some 3, none, some 3] := by decide
example : ¬ Transparent demo := nnz_is_stale demo 0 3 5 3 5 rfl rfl rfl rfl (by decide) 0

end PyNucleus.Props.C23
