import Verif.Model.Smoothers
import Verif.Proof.Vec
import Mathlib.Tactic.FieldSimp
import Mathlib.LinearAlgebra.Matrix.ToLin

/-! # Horner's scheme with a matrix -/

namespace PyNucleus.Smoothers

open PyNucleus.Loops PyNucleus.Spec PyNucleus.Blas

variable {K : Type} [Field K] {n : Nat}

/-- `p(M) x`, leading coefficient first. -/
def pv (M : Matrix (Fin n) (Fin n) K) (x : Fin n → K) (v : Fin n → K) (p : List K) : Fin n → K :=
  p.foldl (fun v c => M.mulVec v + c • x) v

theorem pv_append (M : Matrix (Fin n) (Fin n) K) (x v : Fin n → K) (p q : List K) :
    pv M x v (p ++ q) = pv M x (pv M x v p) q := by unfold pv; rw [List.foldl_append]

theorem pv_zero (M : Matrix (Fin n) (Fin n) K) (p : List K) : pv M 0 0 p = 0 := by
  unfold pv
  induction p with
  | nil => rfl
  | cons c p ih => rw [List.foldl_cons, Matrix.mulVec_zero, smul_zero, add_zero]; exact ih

theorem pv_smul (M : Matrix (Fin n) (Fin n) K) (x : Fin n → K) (a : K) (p : List K) : ∀ v,
    pv M x (a • v) (p.map fun c => a * c) = a • pv M x v p := by
  induction p with
  | nil => intro v; rfl
  | cons c p ih =>
    intro v
    have := ih (M.mulVec v + c • x)
    unfold pv at this ⊢
    rw [List.map_cons, List.foldl_cons, List.foldl_cons, ← this, smul_add, Matrix.mulVec_smul, smul_smul]

theorem pv_zip (M : Matrix (Fin n) (Fin n) K) (x : Fin n → K) : ∀ (p q : List K), p.length = q.length → ∀ v w,
    pv M x (v + w) (List.zipWith (· + ·) p q) = pv M x v p + pv M x w q := by
  intro p
  induction p with
  | nil => intro q h v w; cases q with
    | nil => rfl
    | cons => simp at h
  | cons c p ih => intro q h v w; cases q with
    | nil => simp at h
    | cons d q =>
      have := ih q (by simpa using h) (M.mulVec v + c • x) (M.mulVec w + d • x)
      unfold pv at this ⊢
      rw [List.zipWith_cons_cons, List.foldl_cons, List.foldl_cons, List.foldl_cons, ← this, Matrix.mulVec_add, add_smul]
      congr 1
      abel

theorem pv_root (M : Matrix (Fin n) (Fin n) K) (x : Fin n → K) (a : List K) (r : K) :
    pv M x 0 (List.zipWith (· + ·) (a ++ [0]) (0 :: a.map fun c => -r * c)) =
      M.mulVec (pv M x 0 a) - r • pv M x 0 a := by
  have h := pv_zip M x (a ++ [0]) (0 :: a.map fun c => -r * c) (by simp) 0 0
  rw [add_zero] at h
  rw [h, pv_append]
  have h1 : pv M x (pv M x 0 a) [0] = M.mulVec (pv M x 0 a) := by simp [pv]
  have h2 : pv M x 0 (0 :: a.map fun c => -r * c) = -r • pv M x 0 a := by
    have := pv_smul M x (-r) a 0
    rw [smul_zero] at this
    rw [← this]
    unfold pv
    rw [List.foldl_cons, Matrix.mulVec_zero, zero_smul, zero_add]
  rw [h1, h2, neg_smul, sub_eq_add_neg]

theorem pv_poly (M : Matrix (Fin n) (Fin n) K) (x : Fin n → K) (roots : List K) :
    pv M x 0 (npPoly roots) = roots.foldl (fun v r => M.mulVec v - r • v) x := by
  have : ∀ a, pv M x 0 (roots.foldl (fun a r => List.zipWith (· + ·) (a ++ [0]) (0 :: a.map fun c => -r * c)) a) =
      roots.foldl (fun v r => M.mulVec v - r • v) (pv M x 0 a) := by
    induction roots with
    | nil => intro a; rfl
    | cons r roots ih => intro a; rw [List.foldl_cons, List.foldl_cons, ih, pv_root]
  unfold npPoly
  rw [this]
  simp [pv]

theorem poly_ne (roots : List K) : npPoly roots ≠ [] ∧ (npPoly roots).length = roots.length + 1 := by
  have : ∀ (a : List K), (roots.foldl (fun a r => List.zipWith (· + ·) (a ++ [0]) (0 :: a.map fun c => -r * c)) a).length = roots.length + a.length := by
    induction roots with
    | nil => intro a; simp
    | cons r roots ih => intro a; rw [List.foldl_cons, ih]; simp; omega
  have h := this [1]
  refine ⟨fun h0 => ?_, h⟩
  unfold npPoly at h0
  rw [h0] at h
  simp at h

theorem polyval_zero (p : List K) (hp : p ≠ []) : npPolyval p 0 = p.getLast hp := by
  have h : p = p.dropLast ++ [p.getLast hp] := (List.dropLast_append_getLast hp).symm
  unfold npPolyval
  conv_lhs => rw [h]
  rw [List.foldl_append]
  simp

theorem poly_last (roots : List K) (hp : npPoly roots ≠ []) :
    (npPoly roots).getLast hp = roots.foldl (fun s r => -r * s) 1 := by
  have key : ∀ (a : List K), (∀ s, a.getLast? = some s →
      (roots.foldl (fun a r => List.zipWith (· + ·) (a ++ [0]) (0 :: a.map fun c => -r * c)) a).getLast? =
        some (roots.foldl (fun s r => -r * s) s)) := by
    induction roots with
    | nil => intro a s h; exact h
    | cons r roots ih =>
      intro a s h
      rw [List.foldl_cons, List.foldl_cons]
      apply ih (poly_ne roots).1
      obtain ⟨a', rfl⟩ : ∃ a', a = a' ++ [s] := ⟨_, List.dropLast_append_getLast? s h |>.symm⟩
      have e : List.zipWith (· + ·) ((a' ++ [s]) ++ [0]) (0 :: (a' ++ [s]).map fun c => -r * c) =
          List.zipWith (· + ·) (a' ++ [s]) (0 :: a'.map fun c => -r * c) ++ [-r * s] := by
        rw [List.map_append, ← List.cons_append, List.zipWith_append (by simp)]
        simp
      rw [e, List.getLast?_append]
      rfl
  have : (npPoly roots).getLast? = _ := key [1] 1 rfl
  rw [List.getLast?_eq_getLast_of_ne_nil hp] at this
  exact Option.some.inj this

theorem fold_scale (M : Matrix (Fin n) (Fin n) K) : ∀ (roots : List K), (∀ r ∈ roots, r ≠ 0) → ∀ (x : Fin n → K) (s : K), s ≠ 0 →
    roots.foldl (fun s r => -r * s) s ≠ 0 ∧
    (roots.foldl (fun s r => -r * s) s)⁻¹ • roots.foldl (fun v r => M.mulVec v - r • v) (s • x) =
      roots.foldl (fun v r => v - r⁻¹ • M.mulVec v) x := by
  intro roots
  induction roots with
  | nil => intro _ x s hs; exact ⟨hs, by simp [smul_smul, hs]⟩
  | cons r roots ih =>
    intro h x s hs
    have hr := h r (by simp)
    have := ih (fun r hr => h r (by simp [hr])) (x - r⁻¹ • M.mulVec x) (-r * s) (mul_ne_zero (neg_ne_zero.2 hr) hs)
    rw [List.foldl_cons, List.foldl_cons, List.foldl_cons]
    have e : M.mulVec (s • x) - r • (s • x) = (-r * s) • (x - r⁻¹ • M.mulVec x) := by
      rw [Matrix.mulVec_smul, smul_sub, smul_smul, smul_smul, show -r * s * r⁻¹ = -s by field_simp, neg_smul, neg_mul, neg_smul]
      abel
    rw [e]
    exact this

theorem assignScaled_V' (y x : List K) (a : K) (hy : y.length = n) (hx : x.length = n) :
    (assignScaled y x a).length = n ∧ toV n (assignScaled y x a) = a • toV n x := by
  unfold assignScaled
  rw [hx]
  have h := CSR.forRange_set y n (by omega) fun i _ => a * x.getD i 0
  exact ⟨h.1.trans hy, toV_ext fun i hi => by rw [h.2 i, if_pos hi]; rfl⟩

/-- Horner's scheme of the preconditioner. -/
theorem cheb_horner {A : List K → List K → List K} {M : Matrix (Fin n) (Fin n) K} (hA : Applies n A M) (x : List K) (hx : x.length = n) :
    ∀ (cs : List K) (s : List K × List K), s.1.length = n → s.2.length = n →
    (cs.foldl (fun (s : List K × List K) c => (assign3 s.1 x c (A s.1 s.2) 1, A s.1 s.2)) s).1.length = n ∧
    toV n (cs.foldl (fun (s : List K × List K) c => (assign3 s.1 x c (A s.1 s.2) 1, A s.1 s.2)) s).1 =
      pv M (toV n x) (toV n s.1) cs := by
  intro cs
  induction cs with
  | nil => intro s h1 _; exact ⟨h1, rfl⟩
  | cons c cs ih =>
    intro s h1 h2
    obtain ⟨a1, a2⟩ := hA s.1 s.2 h1 h2
    obtain ⟨b1, b2⟩ := assign3_V s.1 x c (A s.1 s.2) 1 h1 hx
    have := ih (assign3 s.1 x c (A s.1 s.2) 1, A s.1 s.2) b1 a1
    rw [List.foldl_cons]
    refine ⟨this.1, this.2.trans ?_⟩
    unfold pv
    rw [List.foldl_cons, b2, a2, one_smul, add_comm]

theorem cheb_eq {A : List K → List K → List K} {M : Matrix (Fin n) (Fin n) K} (hA : Applies n A M) (roots : List K)
    (hr : ∀ r ∈ roots, r ≠ 0) (hne : roots ≠ []) (x y t : List K) (hx : x.length = n) (hy : y.length = n) (ht : t.length = n) :
    ∃ z, chebMatvec A (chebCoeffs roots) x y t = some z ∧ z.length = n ∧
      toV n x - M.mulVec (toV n z) = roots.foldl (fun v r => v - r⁻¹ • M.mulVec v) (toV n x) ∧
      (toV n x = 0 → toV n z = 0) := by
  obtain ⟨hp, hl⟩ := poly_ne roots
  have hs := polyval_zero _ hp
  have hlast := poly_last roots hp
  obtain ⟨f1, f2⟩ := fold_scale M roots hr (toV n x) 1 one_ne_zero
  have hsval : npPolyval (npPoly roots) 0 = roots.foldl (fun s r => -r * s) 1 := hs.trans hlast
  -- the scaled polynomial is `q ++ [1]`
  have hq : (npPoly roots).map (fun c => c / npPolyval (npPoly roots) 0) =
      ((npPoly roots).map fun c => c / npPolyval (npPoly roots) 0).dropLast ++ [1] := by
    have hm : (npPoly roots).map (fun c => c / npPolyval (npPoly roots) 0) ≠ [] := by simpa using hp
    conv_lhs => rw [← List.dropLast_append_getLast hm]
    rw [List.getLast_map, ← hs, div_self (by rw [hsval]; exact f1)]
  have hpv : pv M (toV n x) 0 ((npPoly roots).map fun c => c / npPolyval (npPoly roots) 0) =
      roots.foldl (fun v r => v - r⁻¹ • M.mulVec v) (toV n x) := by
    have h1 : (npPoly roots).map (fun c => c / npPolyval (npPoly roots) 0) =
        (npPoly roots).map fun c => (npPolyval (npPoly roots) 0)⁻¹ * c := by
      apply List.map_congr_left; intro c _; rw [div_eq_mul_inv, mul_comm]
    have h2 := pv_smul M (toV n x) (npPolyval (npPoly roots) 0)⁻¹ (npPoly roots) 0
    rw [smul_zero] at h2
    rw [h1, h2, pv_poly, hsval, ← f2, one_smul]
  have hplen : ((npPoly roots).map fun c => c / npPolyval (npPoly roots) 0).length = roots.length + 1 := by
    rw [List.length_map, hl]
  unfold chebCoeffs
  dsimp only
  generalize ((npPoly roots).map fun c => c / npPolyval (npPoly roots) 0) = p at *
  have hlen : p.dropLast ≠ [] := by
    intro h0
    have := congrArg List.length h0
    simp [hplen] at this
    exact hne this
  obtain ⟨c0, cs, hc⟩ := List.exists_cons_of_ne_nil (show p.dropLast.map (fun c => -c) ≠ [] from fun h => hlen (List.map_eq_nil_iff.1 h))
  rw [hc]
  obtain ⟨a1, a2⟩ := assignScaled_V' y x c0 hy hx
  obtain ⟨z1, z2⟩ := cheb_horner hA x hx cs (assignScaled y x c0, t) a1 ht
  refine ⟨_, rfl, z1, ?_, fun h0 => ?_⟩
  swap
  · rw [show toV n (cs.foldl (fun (s : List K × List K) c =>
      let temp := A s.1 s.2
      (assign3 s.1 x c temp 1, temp)) (assignScaled y x c0, t)).1 = _ from z2, a2, h0, smul_zero]
    exact pv_zero M cs
  rw [show toV n (cs.foldl (fun (s : List K × List K) c =>
      let temp := A s.1 s.2
      (assign3 s.1 x c temp 1, temp)) (assignScaled y x c0, t)).1 = _ from z2, a2]
  have e1 : pv M (toV n x) (c0 • toV n x) cs = pv M (toV n x) 0 (c0 :: cs) := by
    unfold pv; rw [List.foldl_cons, Matrix.mulVec_zero, zero_add]
  have e2 := pv_smul M (toV n x) (-1) p.dropLast 0
  rw [smul_zero, show (p.dropLast.map fun c => -1 * c) = p.dropLast.map (fun c => -c) by
    apply List.map_congr_left; intro c _; ring, hc] at e2
  rw [e1, e2, ← hpv]
  conv_rhs => rw [hq, pv_append]
  rw [Matrix.mulVec_smul]
  unfold pv
  simp [add_comm]

/-- On an eigenvector the error polynomial is a number. -/
theorem fold_eigen (M : Matrix (Fin n) (Fin n) K) (v : Fin n → K) (l : K) (hv : M.mulVec v = l • v) : ∀ (roots : List K) (s : K),
    roots.foldl (fun v r => v - r⁻¹ • M.mulVec v) (s • v) = (s * (roots.map fun r => 1 - l / r).prod) • v := by
  intro roots
  induction roots with
  | nil => intro s; simp
  | cons r roots ih =>
    intro s
    rw [List.foldl_cons, List.map_cons, List.prod_cons, ← mul_assoc, ← ih]
    congr 1
    rw [Matrix.mulVec_smul, hv, smul_smul, smul_smul, ← sub_smul]
    congr 1
    rw [div_eq_mul_inv]; ring

end PyNucleus.Smoothers
