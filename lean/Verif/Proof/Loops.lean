import Verif.Model.Loops
import Verif.Spec.CSR

/-! Helper lemmas on the shared array loops. -/

namespace PyNucleus.Loops

open PyNucleus.Spec

theorem forRange_succ {σ : Type} (n : Nat) (s : σ) (body : σ → Nat → σ) :
    forRange 0 (n + 1) s body = body (forRange 0 n s body) n := by
  unfold forRange
  rw [Nat.sub_zero, Nat.sub_zero, List.range'_1_concat, List.foldl_append]
  simp

theorem forRange_congr {σ : Type} (lo hi : Nat) (s : σ) (f g : σ → Nat → σ)
    (h : ∀ s k, lo ≤ k → k < hi → f s k = g s k) : forRange lo hi s f = forRange lo hi s g := by
  unfold forRange
  have : ∀ n lo, lo + n ≤ hi → (∀ s k, lo ≤ k → k < hi → f s k = g s k) → ∀ s,
      (List.range' lo n).foldl f s = (List.range' lo n).foldl g s := by
    intro n
    induction n with
    | zero => intros; rfl
    | succ n ih =>
      intro lo hle h s
      rw [List.range'_succ, List.foldl_cons, List.foldl_cons, h s lo (Nat.le_refl _) (by omega)]
      exact ih (lo + 1) (by omega) (fun s k h1 h2 => h s k (by omega) h2) _
  by_cases hlt : lo ≤ hi
  · exact this (hi - lo) lo (by omega) h s
  · rw [show hi - lo = 0 by omega]; rfl

theorem take_succ_getD {α : Type} (d : α) : ∀ (xs : List α) (n : Nat), 0 < xs.length →
    xs.take (n + 1) = xs.getD 0 d :: (xs.drop 1).take n := by
  intro xs n h
  cases xs with
  | nil => simp at h
  | cons x t => simp

/-- A loop over `range(lo, hi)` that reads an array is a fold over the slice. -/
theorem forRange_slice {σ α : Type} (xs : List α) (d : α) (lo hi : Nat) (h : hi ≤ xs.length)
    (s : σ) (f : σ → α → σ) :
    forRange lo hi s (fun s k => f s (xs.getD k d)) = ((xs.drop lo).take (hi - lo)).foldl f s := by
  unfold forRange
  have : ∀ n lo, lo + n ≤ xs.length → ∀ s,
      (List.range' lo n).foldl (fun s k => f s (xs.getD k d)) s =
        ((xs.drop lo).take n).foldl f s := by
    intro n
    induction n with
    | zero => intros; simp
    | succ n ih =>
      intro lo hle s
      have hl : lo < xs.length := by omega
      rw [List.range'_succ, List.foldl_cons, ih (lo + 1) (by omega),
        List.drop_eq_getElem_cons hl, List.take_succ_cons, List.foldl_cons]
      congr 2
      simp [List.getD_eq_getElem?_getD, List.getElem?_eq_getElem hl]
  by_cases hlt : lo ≤ hi
  · exact this (hi - lo) lo (by omega) s
  · rw [show hi - lo = 0 by omega]; simp

/-- A loop over the rows is a fold over the row numbers. -/
theorem forRange_zero {σ : Type} (n : Nat) (s : σ) (body : σ → Nat → σ) :
    forRange 0 n s body = (List.range n).foldl body s := by
  rw [forRange, Nat.sub_zero, List.range_eq_range']

/-! ### counting -/

theorem getD_modify {α : Type} (p : List α) (d : α) (k i : Nat) (f : α → α) :
    (p.modify k f).getD i d =
      if k = i ∧ i < p.length then f (p.getD i d) else p.getD i d := by
  rw [List.getD_eq_getElem?_getD, List.getD_eq_getElem?_getD, List.getElem?_modify]
  by_cases hi : i < p.length
  · rw [List.getElem?_eq_getElem hi]
    by_cases hk : k = i <;> simp [hk, hi]
  · rw [List.getElem?_eq_none_iff.2 (by omega)]
    simp [hi]

theorem getD_set {α : Type} (p : List α) (d : α) (k i : Nat) (v : α) :
    (p.set k v).getD i d = if k = i ∧ i < p.length then v else p.getD i d := by
  rw [List.getD_eq_getElem?_getD, List.getD_eq_getElem?_getD, List.getElem?_set]
  by_cases hi : i < p.length
  · rw [List.getElem?_eq_getElem hi]
    by_cases hk : k = i
    · subst hk; simp [hi]
    · simp [hk]
  · rw [List.getElem?_eq_none_iff.2 (by omega)]
    by_cases hk : k = i
    · subst hk; simp [hi]
    · simp [hk]

theorem countKeys_getD (n : Nat) (keys : List Nat) (h : ∀ c ∈ keys, c < n) :
    (countKeys n keys).length = n + 1 ∧ (countKeys n keys).getD 0 0 = 0 ∧
      ∀ c, c < n → (countKeys n keys).getD (c + 1) 0 = keys.count c := by
  unfold countKeys
  have : ∀ (keys : List Nat) (p : List Nat), p.length = n + 1 → (∀ c ∈ keys, c < n) →
      let q := keys.foldl (fun p c => p.modify (c + 1) (· + 1)) p
      q.length = n + 1 ∧ q.getD 0 0 = p.getD 0 0 ∧
        ∀ c, c < n → q.getD (c + 1) 0 = p.getD (c + 1) 0 + keys.count c := by
    intro keys
    induction keys with
    | nil => intro p hp _; exact ⟨hp, rfl, fun c _ => by simp⟩
    | cons k t ih =>
      intro p hp hk
      have := ih (p.modify (k + 1) (· + 1)) (by simpa using hp)
        (fun c hc => hk c (List.mem_cons_of_mem _ hc))
      refine ⟨this.1, ?_, fun c hc => ?_⟩
      · rw [List.foldl_cons, this.2.1, getD_modify, if_neg (by omega)]
      · rw [List.foldl_cons, this.2.2 c hc, getD_modify, List.count_cons]
        by_cases hkc : k = c
        · subst hkc; rw [if_pos ⟨rfl, by omega⟩]; simp; omega
        · rw [if_neg (by omega)]; simp [hkc]
  obtain ⟨h1, h2, h3⟩ := this keys (List.replicate (n + 1) 0) (by simp) h
  refine ⟨h1, ?_, fun c hc => ?_⟩
  · rw [h2]; simp
  · rw [h3 c hc]; simp [List.getD_eq_getElem?_getD, hc]

/-- Number of keys below `c`. -/
def below (keys : List Nat) (c : Nat) : Nat := keys.countP fun k => decide (k < c)

theorem below_zero (keys : List Nat) : below keys 0 = 0 := by
  simp [below]

theorem below_succ (keys : List Nat) (c : Nat) : below keys (c + 1) = below keys c + keys.count c := by
  unfold below
  induction keys with
  | nil => rfl
  | cons k t ih =>
    rw [List.countP_cons, List.countP_cons, List.count_cons, ih]
    by_cases h1 : k < c
    · have : ¬ k = c := by omega
      simp [h1, this, show k < c + 1 by omega]; omega
    · by_cases h2 : k = c
      · simp [h2]; omega
      · simp [h1, h2, show ¬ k < c + 1 by omega]

theorem below_mono (keys : List Nat) {c c' : Nat} (h : c ≤ c') : below keys c ≤ below keys c' := by
  induction c' with
  | zero => have : c = 0 := by omega
            rw [this]; exact Nat.le_refl _
  | succ c' ih =>
    by_cases hc : c = c' + 1
    · rw [hc]; exact Nat.le_refl _
    · rw [below_succ]; have := ih (by omega); omega

theorem below_all (keys : List Nat) (n : Nat) (h : ∀ c ∈ keys, c < n) :
    below keys n = keys.length := by
  unfold below
  rw [List.countP_eq_length]
  intro c hc
  simp [h c hc]

theorem cumsum_getD (n : Nat) (p : List Nat) (hp : p.length = n + 1) :
    (cumsum n p).length = n + 1 ∧
      (∀ i, i ≤ n → (cumsum n p).getD i 0 = (List.range (i + 1)).foldl (fun s k => s + p.getD k 0) 0) := by
  have : ∀ m, m ≤ n → (forRange 0 m p fun p i => p.set (i + 1) (p.getD (i + 1) 0 + p.getD i 0)).length
      = n + 1 ∧ ∀ i, i ≤ n →
      (forRange 0 m p fun p i => p.set (i + 1) (p.getD (i + 1) 0 + p.getD i 0)).getD i 0 =
        if i ≤ m then (List.range (i + 1)).foldl (fun s k => s + p.getD k 0) 0 else p.getD i 0 := by
    intro m
    induction m with
    | zero =>
      intro _
      refine ⟨hp, fun i hi => ?_⟩
      simp only [forRange, Nat.sub_self, List.range'_zero, List.foldl_nil]
      by_cases h : i ≤ 0
      · have : i = 0 := by omega
        subst this; simp
      · rw [if_neg h]
    | succ m ih =>
      intro hm
      obtain ⟨h1, h2⟩ := ih (by omega)
      rw [forRange_succ]
      refine ⟨by rw [List.length_set]; exact h1, fun i hi => ?_⟩
      rw [getD_set, h1]
      by_cases he : m + 1 = i
      · subst he
        rw [if_pos ⟨rfl, by omega⟩, if_pos (Nat.le_refl _), h2 (m + 1) hi, h2 m (by omega),
          if_neg (by omega), if_pos (Nat.le_refl _)]
        rw [List.range_succ (n := m + 1), List.foldl_append]
        simp only [List.foldl_cons, List.foldl_nil]
        omega
      · rw [if_neg (by omega), h2 i hi]
        by_cases hle : i ≤ m
        · rw [if_pos hle, if_pos (by omega)]
        · rw [if_neg hle, if_neg (by omega)]
  obtain ⟨h1, h2⟩ := this n (Nat.le_refl _)
  refine ⟨h1, fun i hi => ?_⟩
  unfold cumsum
  rw [h2 i hi, if_pos hi]

/-- Count and running sums give the number of smaller keys. -/
theorem cumsum_countKeys (n : Nat) (keys : List Nat) (h : ∀ c ∈ keys, c < n) :
    (cumsum n (countKeys n keys)).length = n + 1 ∧
      ∀ c, c ≤ n → (cumsum n (countKeys n keys)).getD c 0 = below keys c := by
  obtain ⟨h1, h2, h3⟩ := countKeys_getD n keys h
  obtain ⟨h4, h5⟩ := cumsum_getD n _ h1
  refine ⟨h4, fun c hc => ?_⟩
  rw [h5 c hc]
  induction c with
  | zero =>
    rw [below_zero, show List.range (0 + 1) = [0] from rfl, List.foldl_cons, List.foldl_nil, h2]
  | succ c ih =>
    rw [List.range_succ, List.foldl_append, ih (by omega), below_succ]
    rw [List.foldl_cons, List.foldl_nil, h3 c (by omega)]

/-! ### filling -/

/-- State of the fill loop after the items `done` out of `items`. -/
structure FillInv {α : Type} (n : Nat) (items done : List (Nat × α)) (s : List Nat × List α) :
    Prop where
  plen : s.1.length = n + 1
  vlen : s.2.length = items.length
  ptr : ∀ c, c < n → s.1.getD c 0 = below (items.map Prod.fst) c + (done.map Prod.fst).count c
  ptrn : s.1.getD n 0 = below (items.map Prod.fst) n
  val : ∀ c, c < n → (s.2.drop (below (items.map Prod.fst) c)).take ((done.map Prod.fst).count c) =
    (done.filter fun it => it.1 = c).map Prod.snd

theorem take_drop_set_of_disjoint {α : Type} (v : List α) (q a b : Nat) (x : α)
    (h : q < a ∨ a + b ≤ q) : ((v.set q x).drop a).take b = (v.drop a).take b := by
  apply List.ext_getElem?
  intro i
  rw [List.getElem?_take, List.getElem?_take]
  split
  · rw [List.getElem?_drop, List.getElem?_drop, List.getElem?_set_ne (by omega)]
  · rfl

theorem fill_step {α : Type} (n : Nat) (items done rest : List (Nat × α)) (it : Nat × α)
    (hitems : items = done ++ it :: rest) (hk : ∀ x ∈ items, x.1 < n)
    (s : List Nat × List α) (hs : FillInv n items done s) :
    FillInv n items (done ++ [it])
      (s.1.modify it.1 (· + 1), s.2.set (s.1.getD it.1 0) it.2) := by
  have hit : it.1 < n := hk it (by rw [hitems]; simp)
  have hcnt : ∀ c, (done.map Prod.fst).count c + (if it.1 = c then 1 else 0) ≤
      (items.map Prod.fst).count c := by
    intro c
    rw [hitems, List.map_append, List.map_cons, List.count_append, List.count_cons]
    by_cases h : it.1 = c <;> simp [h]
  have hle : ∀ c, c < n → below (items.map Prod.fst) c + (items.map Prod.fst).count c ≤ items.length := by
    intro c hc
    have h1 := below_mono (items.map Prod.fst) (show c + 1 ≤ n by omega)
    rw [below_succ] at h1
    have h2 := below_all (items.map Prod.fst) n
      (by intro c hc; obtain ⟨x, hx, rfl⟩ := List.mem_map.1 hc; exact hk x hx)
    rw [List.length_map] at h2
    omega
  refine ⟨by simpa using hs.plen, by simpa using hs.vlen, fun c hc => ?_, ?_, fun c hc => ?_⟩
  · rw [getD_modify, hs.plen, hs.ptr c hc, List.map_append, List.count_append]
    by_cases h : it.1 = c
    · rw [if_pos ⟨h, by omega⟩]; simp [h]; omega
    · rw [if_neg (by omega)]; simp [h]
  · rw [getD_modify, if_neg (by omega)]; exact hs.ptrn
  · rw [hs.ptr it.1 hit, List.map_append, List.count_append, List.filter_append, List.map_append]
    by_cases h : it.1 = c
    · subst h
      have h1 := hcnt it.1
      have h2 := hle it.1 hit
      have h3 := hs.vlen
      simp only [if_true] at h1
      have e : ([it].filter fun x => decide (x.1 = it.1)).map Prod.snd = [it.2] := by simp
      rw [e, ← hs.val it.1 hit]
      apply List.ext_getElem?
      intro i
      have hlen : ((s.2.drop (below (items.map Prod.fst) it.1)).take
          ((done.map Prod.fst).count it.1)).length = (done.map Prod.fst).count it.1 := by
        rw [List.length_take, List.length_drop, h3]; omega
      have ec : ([it].map Prod.fst).count it.1 = 1 := by simp
      rw [ec]
      by_cases hi : i < (done.map Prod.fst).count it.1
      · rw [List.getElem?_append_left (by omega), List.getElem?_take, List.getElem?_take,
          if_pos (by omega), if_pos hi, List.getElem?_drop, List.getElem?_drop,
          List.getElem?_set_ne (by omega)]
      · by_cases hi' : i = (done.map Prod.fst).count it.1
        · subst hi'
          rw [List.getElem?_append_right (by omega), hlen, Nat.sub_self, List.getElem?_take,
            if_pos (by omega), List.getElem?_drop, List.getElem?_set_self (by omega)]
          rfl
        · rw [List.getElem?_take, if_neg (by omega), List.getElem?_eq_none_iff.2]
          rw [List.length_append, hlen]
          simp; omega
    · have e : ([it].filter fun x => decide (x.1 = c)).map Prod.snd = [] := by simp [h]
      have ec : ([it].map Prod.fst).count c = 0 := by simp [h]
      rw [e, ec, Nat.add_zero, List.append_nil, ← hs.val c hc]
      apply take_drop_set_of_disjoint
      have h1 := hcnt it.1
      have h2 := hcnt c
      simp only [if_true] at h1
      simp only [h, if_false, Nat.add_zero] at h2
      rcases Nat.lt_or_gt_of_ne h with hlt | hgt
      · left
        have := below_mono (items.map Prod.fst) (show it.1 + 1 ≤ c by omega)
        rw [below_succ] at this
        omega
      · right
        have := below_mono (items.map Prod.fst) (show c + 1 ≤ it.1 by omega)
        rw [below_succ] at this
        omega

theorem fill_inv {α : Type} (n : Nat) (items : List (Nat × α)) (hk : ∀ x ∈ items, x.1 < n) :
    ∀ (rest done : List (Nat × α)) (s : List Nat × List α), items = done ++ rest →
      FillInv n items done s → FillInv n items items (fill rest s) := by
  intro rest
  induction rest with
  | nil =>
    intro done s h hs
    rw [List.append_nil] at h
    subst h; exact hs
  | cons it rest ih =>
    intro done s h hs
    have := fill_step n items done rest it h hk s hs
    exact ih (done ++ [it]) _ (by rw [h]; simp) this

/-! ### shifting the pointers back -/

theorem shiftBack_getD (n : Nat) (p : List Nat) (hp : p.length = n + 1) :
    (shiftBack n p).length = n + 1 ∧ (shiftBack n p).getD 0 0 = 0 ∧
      ∀ i, i < n → (shiftBack n p).getD (i + 1) 0 = p.getD i 0 := by
  have : ∀ m (p : List Nat), p.length = n + 1 → m ≤ n →
      let q := (List.range' 1 m).reverse.foldl (fun p i => p.set i (p.getD (i - 1) 0)) p
      q.length = n + 1 ∧ ∀ i, i < m → q.getD (i + 1) 0 = p.getD i 0 := by
    intro m
    induction m with
    | zero => intro p hp _; exact ⟨hp, fun i hi => by omega⟩
    | succ m ih =>
      intro p hp hm
      obtain ⟨h1, h2⟩ := ih (p.set (m + 1) (p.getD m 0)) (by simpa using hp) (by omega)
      have e : (List.range' 1 (m + 1)).reverse = (m + 1) :: (List.range' 1 m).reverse := by
        rw [List.range'_1_concat]; simp; omega
      rw [e]
      simp only [List.foldl_cons, Nat.add_sub_cancel]
      refine ⟨h1, fun i hi => ?_⟩
      by_cases him : i < m
      · rw [h2 i him, getD_set, if_neg (by omega)]
      · have : i = m := by omega
        subst this
        -- positions above the remaining range are not written any more
        have hkeep : ∀ (k : Nat) (q : List Nat), k ≤ i →
            ((List.range' 1 k).reverse.foldl (fun p i => p.set i (p.getD (i - 1) 0)) q).getD (i + 1) 0
              = q.getD (i + 1) 0 := by
          intro k
          induction k with
          | zero => intro q _; rfl
          | succ k ihk =>
            intro q hk
            have e : (List.range' 1 (k + 1)).reverse = (k + 1) :: (List.range' 1 k).reverse := by
              rw [List.range'_1_concat]; simp; omega
            rw [e, List.foldl_cons, ihk _ (by omega), getD_set, if_neg (by omega)]
        rw [hkeep i _ (Nat.le_refl _), getD_set, if_pos ⟨rfl, by omega⟩]
  obtain ⟨h1, h2⟩ := this n p hp (Nat.le_refl _)
  unfold shiftBack
  refine ⟨by rw [List.length_set]; exact h1, ?_, fun i hi => ?_⟩
  · rw [getD_set, if_pos ⟨rfl, by omega⟩]
  · rw [getD_set, if_neg (by omega), h2 i hi]

theorem rotate_getD (n : Nat) (p : List Nat) (hp : p.length = n + 1) :
    (rotate n p).length = n + 1 ∧ (rotate n p).getD 0 0 = 0 ∧
      ∀ i, i < n → (rotate n p).getD (i + 1) 0 = p.getD i 0 := by
  have : ∀ m, m ≤ n + 1 →
      let s := forRange 0 m (p, 0) fun s i => (s.1.set i s.2, s.1.getD i 0)
      s.1.length = n + 1 ∧ s.2 = (if m = 0 then 0 else p.getD (m - 1) 0) ∧
        ∀ i, i < n + 1 → s.1.getD i 0 =
          if i < m then (if i = 0 then 0 else p.getD (i - 1) 0) else p.getD i 0 := by
    intro m
    induction m with
    | zero =>
      intro _
      refine ⟨hp, rfl, fun i _ => ?_⟩
      simp [forRange]
    | succ m ih =>
      intro hm
      obtain ⟨h1, h2, h3⟩ := ih (by omega)
      rw [forRange_succ]
      refine ⟨by simpa using h1, ?_, fun i hi => ?_⟩
      · simp only
        rw [h3 m (by omega), if_neg (by omega), if_neg (by omega), Nat.add_sub_cancel]
      · simp only
        rw [getD_set, h1, h2, h3 i hi]
        by_cases him : m = i
        · subst him
          rw [if_pos ⟨rfl, hi⟩, if_pos (show m < m + 1 by omega)]
        · rw [if_neg (fun h => him h.1)]
          by_cases hlt : i < m
          · rw [if_pos hlt, if_pos (show i < m + 1 by omega)]
          · rw [if_neg hlt, if_neg (show ¬ i < m + 1 by omega)]
  obtain ⟨h1, _, h3⟩ := this (n + 1) (Nat.le_refl _)
  unfold rotate
  refine ⟨h1, ?_, fun i hi => ?_⟩
  · rw [h3 0 (by omega)]; simp
  · rw [h3 (i + 1) (by omega), if_pos (by omega), if_neg (by omega), Nat.add_sub_cancel]

/-- Outcome of count, running sums, fill and a shift of the pointers: a CSR layout whose row
`c` lists the items with key `c` in their original order. -/
theorem bucket {α : Type} (n : Nat) (items : List (Nat × α)) (hk : ∀ x ∈ items, x.1 < n)
    (out : List α) (hout : out.length = items.length) (shift : List Nat → List Nat)
    (hshift : ∀ p : List Nat, p.length = n + 1 → (shift p).length = n + 1 ∧ (shift p).getD 0 0 = 0 ∧
      ∀ i, i < n → (shift p).getD (i + 1) 0 = p.getD i 0) :
    let s := fill items (cumsum n (countKeys n (items.map Prod.fst)), out)
    ValidIndptr (shift s.1) n items.length ∧ s.2.length = items.length ∧
      (∀ c, c ≤ n → (shift s.1).getD c 0 = below (items.map Prod.fst) c) ∧
      ∀ c, c < n → csrRow (shift s.1) s.2 c = (items.filter fun it => it.1 = c).map Prod.snd := by
  have hk' : ∀ c ∈ items.map Prod.fst, c < n := by
    intro c hc; obtain ⟨x, hx, rfl⟩ := List.mem_map.1 hc; exact hk x hx
  obtain ⟨c1, c2⟩ := cumsum_countKeys n (items.map Prod.fst) hk'
  have hinit : FillInv n items [] (cumsum n (countKeys n (items.map Prod.fst)), out) :=
    ⟨c1, hout, fun c hc => by simpa using c2 c (by omega), c2 n (Nat.le_refl _),
      fun c hc => by simp⟩
  have hinv := fill_inv n items hk items [] _ rfl hinit
  intro s
  obtain ⟨s1, s2, s3⟩ := hshift s.1 hinv.plen
  have hget : ∀ c, c ≤ n → (shift s.1).getD c 0 = below (items.map Prod.fst) c := by
    intro c hc
    cases c with
    | zero => rw [s2, below_zero]
    | succ c => rw [s3 c (by omega), hinv.ptr c (by omega), below_succ]
  have hall := below_all (items.map Prod.fst) n hk'
  rw [List.length_map] at hall
  refine ⟨⟨s1, ?_, ?_, ?_⟩, hinv.vlen, hget, ?_⟩
  · have : (shift s.1)[0]? = some ((shift s.1).getD 0 0) := by
      rw [List.getD_eq_getElem?_getD, List.getElem?_eq_getElem (by omega)]; rfl
    rw [this, s2]
  · have : (shift s.1)[n]? = some ((shift s.1).getD n 0) := by
      rw [List.getD_eq_getElem?_getD, List.getElem?_eq_getElem (by omega)]; rfl
    rw [this, hget n (Nat.le_refl _), hall]
  · intro i hi
    rw [hget i (by omega), hget (i + 1) (by omega)]
    exact below_mono _ (by omega)
  · intro c hc
    unfold csrRow
    rw [hget c (by omega), hget (c + 1) (by omega), below_succ, Nat.add_sub_cancel_left]
    exact hinv.val c hc

end PyNucleus.Loops
