import Verif.Model.TupleDict
import Verif.Spec.EdgeMap
import Verif.Proof.SortedRow

/-! Helper lemmas for `tupleDict`. -/

namespace PyNucleus.TupleDict

open PyNucleus.SortedRow PyNucleus.Spec

variable {V : Type}

/-- The live entries of a row represent the function `f`. -/
def Repr (r : Row V) (f : Int → Option V) : Prop := ∀ J v, (J, v) ∈ r.live ↔ f J = some v

theorem deleteAt_spec (c : Config V) (r : Row V) (hr : r.WF) (hW : r.count < c.W)
    (l1 l2 : List (Int × V)) (x : Int × V) (hl : r.live = l1 ++ x :: l2) :
    ∃ r', deleteAt c r l1.length = some r' ∧ r'.WF ∧ r'.live = l1 ++ l2 ∧
      r'.count + 1 = r.count := by
  obtain ⟨b, h1, h2, h3⟩ := delete_live r.buf r.count l1 l2 x hr.count_le hl
  have hpos : 0 < r.count := by
    have := congrArg List.length hl
    rw [hr.live_length, List.length_append, List.length_cons] at this
    omega
  have hcount : (r.count + (c.W - 1)) % c.W = r.count - 1 := by
    rw [show r.count + (c.W - 1) = (r.count - 1) + c.W by omega, Nat.add_mod_right,
      Nat.mod_eq_of_lt (by omega)]
  refine ⟨{ r with buf := b, count := r.count - 1 }, by simp [deleteAt, h1, hcount], ?_, h3, ?_⟩
  · have hle : r.count - 1 ≤ b.length := by rw [h2]; have := hr.count_le; omega
    refine ⟨hle, by show b.length = r.length; rw [h2]; exact hr.len, ?_⟩
    refine (sorted_iff b (r.count - 1) hle).2 ?_
    rw [h3]
    exact sorted_delete (by rw [← hl]; exact hr.live_sorted)
  · show r.count - 1 + 1 = r.count
    omega

theorem insertAt_spec (c : Config V) (r : Row V) (J : Int) (val : V) (hr : r.WF)
    (hinc : 0 < c.lengthInc) (hW : r.count + c.lengthInc < c.W)
    (l1 l2 : List (Int × V)) (hl : r.live = l1 ++ l2)
    (h1 : ∀ p ∈ l1, p.1 < J) (h2 : ∀ p ∈ l2, J < p.1) :
    ∃ r', insertAt c r l1.length J val = some r' ∧ r'.WF ∧ r'.live = l1 ++ (J, val) :: l2 ∧
      r'.count = r.count + 1 := by
  obtain ⟨r1, hr1, hb1, hc1, hl1⟩ : ∃ r1 : Row V,
      (if r.count = r.length then increaseSize c r else r) = r1 ∧
      r1.buf.take r.count = l1 ++ l2 ∧ r1.count = r.count ∧
      (r.count < r1.buf.length ∧ r1.buf.length = r1.length) := by
    refine ⟨_, rfl, ?_⟩
    have hlen := hr.len
    have hle := hr.count_le
    by_cases hc : r.count = r.length
    · have hmod : (r.length + c.lengthInc) % c.W = r.length + c.lengthInc :=
        Nat.mod_eq_of_lt (by omega)
      rw [if_pos hc]
      refine ⟨?_, rfl, ?_, ?_⟩ <;> simp only [increaseSize, hmod]
      · rw [realloc_take _ _ _ _ hle (by omega)]
        exact hl
      · rw [realloc_length]; omega
      · rw [realloc_length]
    · rw [if_neg hc]
      exact ⟨hl, rfl, by omega, hlen⟩
  obtain ⟨b, b', e1, e2, e3, e4⟩ := insert_live r1.buf r.count l1 l2 J val hl1.1 hb1
  have hmod : (r.count + 1) % c.W = r.count + 1 := Nat.mod_eq_of_lt (by omega)
  refine ⟨{ r1 with buf := b', count := r.count + 1 }, ?_, ?_, e4, rfl⟩
  · simp only [insertAt, hr1, hc1, e1, e2, hmod]
  · have hbl : r.count + 1 ≤ b'.length := by rw [e3]; omega
    refine ⟨hbl, by show b'.length = r1.length; rw [e3]; exact hl1.2, ?_⟩
    refine (sorted_iff b' (r.count + 1) hbl).2 ?_
    rw [e4]
    exact sorted_insert (by rw [← hl]; exact hr.live_sorted) h1 h2

/-- Keys occur once in a sorted list. -/
theorem sorted_split_unique {l1 l2 : List (Int × V)} {J : Int} {v : V}
    (h : (l1 ++ (J, v) :: l2).Pairwise (fun a b => a.1 < b.1)) :
    (∀ p ∈ l1, p.1 < J) ∧ (∀ p ∈ l2, J < p.1) := by
  rw [List.pairwise_append, List.pairwise_cons] at h
  exact ⟨fun p hp => h.2.2 p hp (J, v) (by simp), h.2.1.1⟩

theorem repr_hit {r : Row V} {f : Int → Option V} (hf : Repr r f) {l1 l2 : List (Int × V)}
    {J : Int} {v : V} (hl : r.live = l1 ++ (J, v) :: l2) : f J = some v :=
  (hf J v).1 (by rw [hl]; simp)

theorem repr_miss {r : Row V} {f : Int → Option V} (hf : Repr r f) {l1 l2 : List (Int × V)}
    {J : Int} (hl : r.live = l1 ++ l2) (h1 : ∀ p ∈ l1, p.1 < J) (h2 : ∀ p ∈ l2, J < p.1) :
    f J = none := by
  cases h : f J with
  | none => rfl
  | some v =>
    have := (hf J v).2 h
    rw [hl, List.mem_append] at this
    rcases this with h' | h'
    · have := h1 _ h'; simp at this
    · have := h2 _ h'; simp at this

theorem repr_delete {r r' : Row V} {f : Int → Option V} (hr : r.WF) (hf : Repr r f)
    {l1 l2 : List (Int × V)} {J : Int} {v : V} (hl : r.live = l1 ++ (J, v) :: l2)
    (hl' : r'.live = l1 ++ l2) : Repr r' (fun K => if K = J then none else f K) := by
  obtain ⟨h1, h2⟩ := sorted_split_unique (by rw [← hl]; exact hr.live_sorted)
  intro K w
  rw [hl', List.mem_append]
  by_cases hK : K = J
  · subst hK
    simp only [if_true, reduceCtorEq, iff_false, not_or]
    exact ⟨fun h => by have := h1 _ h; simp at this, fun h => by have := h2 _ h; simp at this⟩
  · simp only [if_neg hK]
    rw [← hf K w, hl, List.mem_append, List.mem_cons]
    constructor
    · rintro (h | h)
      · exact Or.inl h
      · exact Or.inr (Or.inr h)
    · rintro (h | h | h)
      · exact Or.inl h
      · exact absurd (Prod.mk.inj h).1 hK
      · exact Or.inr h

theorem repr_insert {r r' : Row V} {f : Int → Option V} (hf : Repr r f)
    {l1 l2 : List (Int × V)} {J : Int} {v : V} (hl : r.live = l1 ++ l2)
    (h1 : ∀ p ∈ l1, p.1 < J) (h2 : ∀ p ∈ l2, J < p.1)
    (hl' : r'.live = l1 ++ (J, v) :: l2) : Repr r' (fun K => if K = J then some v else f K) := by
  intro K w
  rw [hl', List.mem_append, List.mem_cons]
  by_cases hK : K = J
  · subst hK
    simp only [if_true, Option.some.injEq]
    constructor
    · rintro (h | h | h)
      · have := h1 _ h; simp at this
      · exact (Prod.mk.inj h).2.symm
      · have := h2 _ h; simp at this
    · rintro rfl
      exact Or.inr (Or.inl rfl)
  · simp only [if_neg hK]
    rw [← hf K w, hl, List.mem_append]
    constructor
    · rintro (h | h | h)
      · exact Or.inl h
      · exact absurd (Prod.mk.inj h).1 hK
      · exact Or.inr h
    · rintro (h | h)
      · exact Or.inl h
      · exact Or.inr (Or.inr h)

theorem set_middle {α : Type} (l1 l2 : List α) (x y : α) :
    (l1 ++ x :: l2).set l1.length y = l1 ++ y :: l2 := by
  induction l1 with
  | nil => rfl
  | cons a t ih => simp [ih]

theorem enterRow_spec [OrOp V] (c : Config V) (r : Row V) (J : Int) (val : V) (hr : r.WF)
    (f : Int → Option V) (hf : Repr r f)
    (hinc : 0 < c.lengthInc) (hW : r.count < c.W)
    (hlim : f J = none → r.count + c.lengthInc < c.W) :
    ∃ r' dn out, enterRow c r J val = some (r', dn, out) ∧ r'.WF ∧
      (r'.count : Int) = r.count + dn ∧
      (match f J with
        | none => out = val ∧ Repr r' (fun K => if K = J then some val else f K)
        | some old => match c.mode with
          | .keep => out = old ∧ Repr r' f
          | .delete => out = old ∧ Repr r' (fun K => if K = J then none else f K)
          | .or => out = (old ||| val) ∧
              Repr r' (fun K => if K = J then some (old ||| val) else f K)) := by
  rcases find_live c.W r J hr hW with ⟨l1, v, l2, hl, hfi, hbuf⟩ | ⟨l1, l2, hl, hfi, h1, h2⟩
  · have hfJ := repr_hit hf hl
    simp only [enterRow, hfi, hbuf, hfJ, Config.mode]
    by_cases hd : c.deleteHits = true
    · simp only [hd, if_true]
      obtain ⟨r', e1, e2, e3, e4⟩ := deleteAt_spec c r hr hW l1 l2 (J, v) hl
      rw [e1]
      exact ⟨r', -1, v, rfl, e2, by omega, rfl, repr_delete hr hf hl e3⟩
    · by_cases ha : c.logicalAndHits = true
      · simp only [hd, ha, if_true]
        have hlen : l1.length < r.count := by
          have := congrArg List.length hl
          rw [hr.live_length, List.length_append, List.length_cons] at this
          omega
        have hst : store r.buf l1.length (J, v ||| val) =
            some (r.buf.set l1.length (J, v ||| val)) := by
          rw [store, if_pos (by have := hr.count_le; omega)]
        simp only [Bool.false_eq_true, if_false, hst]
        have hlive : ({ r with buf := r.buf.set l1.length (J, v ||| val) } : Row V).live =
            l1 ++ (J, v ||| val) :: l2 := by
          show (r.buf.set l1.length (J, v ||| val)).take r.count = _
          rw [List.take_set]
          have : r.buf.take r.count = l1 ++ (J, v) :: l2 := hl
          rw [this, set_middle]
        have hs := hr.live_sorted
        rw [hl] at hs
        obtain ⟨g1, g2⟩ := sorted_split_unique hs
        refine ⟨_, 0, _, rfl, ⟨?_, ?_, ?_⟩, by simp, rfl, ?_⟩
        · simpa using hr.count_le
        · simpa using hr.len
        · refine (sorted_iff _ _ (by simpa using hr.count_le)).2 ?_
          have h3 := hlive
          unfold Row.live at h3
          simp only at h3 ⊢
          rw [h3]
          exact sorted_insert (sorted_delete hs) g1 g2
        · have h4 := repr_delete (r' := { r with buf := l1 ++ l2, count := (l1 ++ l2).length }) hr hf
            hl (by simp only [Row.live, List.take_length])
          have h5 := repr_insert h4 (by simp only [Row.live, List.take_length]) g1 g2 hlive
          intro K w
          rw [h5 K w]
          by_cases hK : K = J <;> simp [hK]
      · simp only [hd, ha]
        exact ⟨r, 0, v, rfl, hr, by simp, rfl, hf⟩
  · have hfJ := repr_miss hf hl h1 h2
    simp only [enterRow, hfi, hfJ]
    obtain ⟨r', e1, e2, e3, e4⟩ := insertAt_spec c r J val hr hinc (hlim hfJ) l1 l2 hl h1 h2
    rw [e1]
    exact ⟨r', 1, val, rfl, e2, by omega, rfl, repr_insert hf hl h1 h2 e3⟩

theorem removeRow_spec (c : Config V) (r : Row V) (J : Int) (hr : r.WF)
    (f : Int → Option V) (hf : Repr r f) (hW : r.count < c.W) :
    ∃ r' dn out, removeRow c r J = some (r', dn, out) ∧ r'.WF ∧
      (r'.count : Int) = r.count + dn ∧
      (match f J with
        | none => out = c.invalid ∧ Repr r' f
        | some old => out = old ∧ Repr r' (fun K => if K = J then none else f K)) := by
  rcases find_live c.W r J hr hW with ⟨l1, v, l2, hl, hfi, hbuf⟩ | ⟨l1, l2, hl, hfi, h1, h2⟩
  · have hfJ := repr_hit hf hl
    simp only [removeRow, hfi, hbuf, hfJ]
    obtain ⟨r', e1, e2, e3, e4⟩ := deleteAt_spec c r hr hW l1 l2 (J, v) hl
    rw [e1]
    exact ⟨r', -1, v, rfl, e2, by omega, rfl, repr_delete hr hf hl e3⟩
  · have hfJ := repr_miss hf hl h1 h2
    simp only [removeRow, hfi, hfJ]
    exact ⟨r, 0, _, rfl, hr, by simp, rfl, hf⟩

theorem getRow_spec (c : Config V) (r : Row V) (J : Int) (hr : r.WF)
    (f : Int → Option V) (hf : Repr r f) (hW : r.count < c.W) :
    getRow c r J = some ((f J).getD c.invalid) := by
  rcases find_live c.W r J hr hW with ⟨l1, v, l2, hl, hfi, hbuf⟩ | ⟨l1, l2, hl, hfi, h1, h2⟩
  · simp [getRow, hfi, hbuf, repr_hit hf hl]
  · simp [getRow, hfi, repr_miss hf hl h1 h2]

/-- A dictionary represents an abstract map. -/
structure Rel (n : Nat) (d : Dict V) (m : EdgeMap V) : Prop where
  len : d.rows.length = n
  wf : ∀ i (h : i < d.rows.length), d.rows[i].WF
  repr : ∀ i (h : i < d.rows.length), Repr d.rows[i] (fun J => m (i, J))
  out : ∀ i, n ≤ i → ∀ J, m (i, J) = none
  nnz : d.nnz = ((d.rows.map Row.count).sum : Nat)

theorem rel_init (c : Config V) (n : Nat) :
    Rel n (init c n) (fun _ => none) where
  len := by simp [init]
  wf := by
    intro i h
    simp only [init, List.getElem_replicate]
    exact ⟨Nat.zero_le _, by simp, fun i j _ hj => by simp at hj⟩
  repr := by
    intro i h J v
    simp [init, Row.live]
  out := by simp
  nnz := by simp [init]

theorem sum_set' (l : List Nat) (i : Nat) (h : i < l.length) (x : Nat) :
    (l.set i x).sum + l[i] = l.sum + x := by
  induction l generalizing i with
  | nil => simp at h
  | cons a t ih =>
    cases i with
    | zero => simp; omega
    | succ i =>
      simp only [List.set_cons_succ, List.sum_cons, List.getElem_cons_succ]
      have := ih i (by simpa using h)
      omega

theorem rel_set {n : Nat} {d : Dict V} {m : EdgeMap V} (hrel : Rel n d m) (I : Nat) (J : Int)
    (hI : I < d.rows.length) (r' : Row V) (dn : Int) (o : Option V) (hwf : r'.WF)
    (hc : (r'.count : Int) = d.rows[I].count + dn)
    (hrep : Repr r' (fun K => if K = J then o else m (I, K))) :
    Rel n { rows := d.rows.set I r', nnz := d.nnz + dn } (m.put (I, J) o) where
  len := by simp [hrel.len]
  wf := by
    intro i h
    simp only [List.getElem_set]
    split
    · exact hwf
    · exact hrel.wf i (by simpa using h)
  repr := by
    intro i h
    simp only [List.getElem_set]
    split
    · rename_i hi
      subst hi
      intro K v
      rw [hrep K v]
      simp [EdgeMap.put]
    · rename_i hi
      intro K v
      rw [hrel.repr i (by simpa using h) K v]
      have : ¬ (i = I) := fun e => hi e.symm
      simp [EdgeMap.put, this]
  out := by
    intro i hi K
    have : ¬ (i = I) := by rw [hrel.len] at hI; omega
    simp [EdgeMap.put, this, hrel.out i hi K]
  nnz := by
    simp only [List.map_set, hrel.nnz]
    have := sum_set' (d.rows.map Row.count) I (by simpa using hI) r'.count
    rw [List.getElem_map] at this
    omega

theorem rel_same {n : Nat} {d : Dict V} {m : EdgeMap V} (hrel : Rel n d m) (I : Nat)
    (hI : I < d.rows.length) (r' : Row V) (dn : Int) (hwf : r'.WF)
    (hc : (r'.count : Int) = d.rows[I].count + dn)
    (hrep : Repr r' (fun K => m (I, K))) :
    Rel n { rows := d.rows.set I r', nnz := d.nnz + dn } m where
  len := by simp [hrel.len]
  wf := by
    intro i h
    simp only [List.getElem_set]
    split
    · exact hwf
    · exact hrel.wf i (by simpa using h)
  repr := by
    intro i h
    simp only [List.getElem_set]
    split
    · rename_i hi
      subst hi
      exact hrep
    · exact hrel.repr i (by simpa using h)
  out := hrel.out
  nnz := by
    simp only [List.map_set, hrel.nnz]
    have := sum_set' (d.rows.map Row.count) I (by simpa using hI) r'.count
    rw [List.getElem_map] at this
    omega

theorem keys_nodup {r : Row V} (hr : r.WF) : r.keys.Nodup := by
  unfold Row.keys List.Nodup
  rw [List.pairwise_map]
  exact hr.live_sorted.imp (fun h => by omega)

theorem keys_length {r : Row V} (hr : r.WF) : r.keys.length = r.count := by
  unfold Row.keys; rw [List.length_map, hr.live_length]

theorem mem_keys {r : Row V} {f : Int → Option V} (hf : Repr r f) (J : Int) :
    J ∈ r.keys ↔ f J ≠ none := by
  unfold Row.keys
  rw [List.mem_map]
  constructor
  · rintro ⟨⟨K, v⟩, h1, rfl⟩
    rw [(hf K v).1 h1]; simp
  · intro h
    obtain ⟨v, hv⟩ := Option.ne_none_iff_exists'.1 h
    exact ⟨(J, v), (hf J v).2 hv, rfl⟩

theorem count_lt {c : Config V} {n : Nat} {d : Dict V} {m : EdgeMap V} (hrel : Rel n d m)
    (hfit : Fits c m) (hinc : 0 < c.lengthInc) (i : Nat) (h : i < d.rows.length) :
    d.rows[i].count < c.W := by
  have := hfit i d.rows[i].keys (keys_nodup (hrel.wf i h))
    (fun J hJ => (mem_keys (hrel.repr i h) J).1 hJ)
  rw [keys_length (hrel.wf i h)] at this
  omega

theorem step_rel [OrOp V] (c : Config V) (n : Nat) (d : Dict V) (m : EdgeMap V) (hrel : Rel n d m)
    (hinc : 0 < c.lengthInc) (op : Op V) (hrow : opRow op < n) (hfit : Fits c m)
    (hfit' : Fits c (edgeStep c.mode c.invalid m op).1) :
    ∃ d', step c d op = some (d', (edgeStep c.mode c.invalid m op).2) ∧
      Rel n d' (edgeStep c.mode c.invalid m op).1 := by
  have hI : opRow op < d.rows.length := by rw [hrel.len]; exact hrow
  have hW := count_lt hrel hfit hinc (opRow op) hI
  cases op with
  | enter I J val =>
    simp only [opRow] at hI hW
    have hfit'' := hfit'
    have hlim : m (I, J) = none → d.rows[I].count + c.lengthInc < c.W := by
      intro hnone
      have := hfit' I (J :: d.rows[I].keys)
        (List.nodup_cons.2 ⟨fun h => (mem_keys (hrel.repr I hI) J).1 h hnone,
          keys_nodup (hrel.wf I hI)⟩)
        (by
          intro K hK
          simp only [edgeStep, hnone, EdgeMap.put]
          rcases List.mem_cons.1 hK with rfl | hK
          · simp
          · have := (mem_keys (hrel.repr I hI) K).1 hK
            split
            · simp
            · exact this)
      rw [List.length_cons, keys_length (hrel.wf I hI)] at this
      omega
    obtain ⟨r', dn, out, e1, e2, e3, e4⟩ := enterRow_spec c d.rows[I] J val (hrel.wf I hI)
      (fun J => m (I, J)) (hrel.repr I hI) hinc hW hlim
    refine ⟨{ rows := d.rows.set I r', nnz := d.nnz + dn }, ?_, ?_⟩
    · simp only [step, List.getElem?_eq_getElem hI, e1]
      congr 2
      cases hm : m (I, J) with
      | none => simp only [hm] at e4; simp [edgeStep, hm, e4.1]
      | some old =>
        simp only [hm] at e4
        cases hmode : c.mode <;> simp only [hmode] at e4 <;> simp only [edgeStep, hm, e4.1]
    · cases hm : m (I, J) with
      | none =>
        simp only [hm] at e4
        simp only [edgeStep, hm]
        exact rel_set hrel I J hI r' dn _ e2 e3 e4.2
      | some old =>
        simp only [hm] at e4
        cases hmode : c.mode <;> simp only [hmode] at e4 <;> simp only [edgeStep, hm]
        · exact rel_same hrel I hI r' dn e2 e3 e4.2
        · exact rel_set hrel I J hI r' dn _ e2 e3 e4.2
        · exact rel_set hrel I J hI r' dn _ e2 e3 e4.2
  | remove I J =>
    simp only [opRow] at hI hW
    obtain ⟨r', dn, out, e1, e2, e3, e4⟩ := removeRow_spec c d.rows[I] J (hrel.wf I hI)
      (fun J => m (I, J)) (hrel.repr I hI) hW
    refine ⟨{ rows := d.rows.set I r', nnz := d.nnz + dn }, ?_, ?_⟩
    · simp only [step, List.getElem?_eq_getElem hI, e1]
      congr 2
      cases hm : m (I, J) <;> simp only [hm] at e4 <;> simp [edgeStep, hm, e4.1]
    · cases hm : m (I, J) with
      | none =>
        simp only [hm] at e4
        simp only [edgeStep, hm]
        exact rel_same hrel I hI r' dn e2 e3 e4.2
      | some old =>
        simp only [hm] at e4
        simp only [edgeStep, hm]
        exact rel_set hrel I J hI r' dn _ e2 e3 e4.2
  | get I J =>
    simp only [opRow] at hI hW
    refine ⟨d, ?_, hrel⟩
    simp only [step, List.getElem?_eq_getElem hI,
      getRow_spec c d.rows[I] J (hrel.wf I hI) (fun J => m (I, J)) (hrel.repr I hI) hW,
      Option.map_some, edgeStep]

theorem run_rel [OrOp V] (c : Config V) (n : Nat) (hinc : 0 < c.lengthInc) :
    ∀ (ops : List (Op V)) (d : Dict V) (m : EdgeMap V), Rel n d m →
      (∀ op ∈ ops, opRow op < n) →
      (∀ pre, pre <+: ops → Fits c (edgeRun c.mode c.invalid m pre).1) →
      ∃ d', run c d ops = some (d', (edgeRun c.mode c.invalid m ops).2) ∧
        Rel n d' (edgeRun c.mode c.invalid m ops).1 := by
  intro ops
  induction ops with
  | nil => intro d m h _ _; exact ⟨d, rfl, h⟩
  | cons op ops ih =>
    intro d m hrel hrow hfit
    have hf0 : Fits c m := hfit [] (List.nil_prefix)
    have hf1 : Fits c (edgeStep c.mode c.invalid m op).1 := hfit [op] ⟨ops, rfl⟩
    obtain ⟨d', h1, h2⟩ := step_rel c n d m hrel hinc op (hrow op (by simp)) hf0 hf1
    obtain ⟨d'', h3, h4⟩ := ih d' _ h2 (fun o ho => hrow o (by simp [ho]))
      (fun pre hpre => by
        have := hfit (op :: pre) (by obtain ⟨t, rfl⟩ := hpre; exact ⟨t, rfl⟩)
        exact this)
    exact ⟨d'', by simp only [run, h1, h3]; rfl, h4⟩

end PyNucleus.TupleDict
