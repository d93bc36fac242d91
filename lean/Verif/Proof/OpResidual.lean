import Verif.Proof.OpAlgebra

/-! # Residuals of composite operators -/

namespace PyNucleus.OpAlgebra

open PyNucleus.Spec PyNucleus.Blas

variable {K : Type}

/-- What `residual` leaves behind. -/
def ResidualOK [Field K] [DecidableEq K] (op : Op K) : Prop :=
  ∀ (x rhs r : Nat) (h : Heap K), Pre op false x r h → rhs ≠ r → rhs ∉ op.bufs → (h rhs).length = op.shape.1 →
    ∃ h', residual op x rhs r h = some h' ∧
      Good h h' r op.bufs op.shape.1 fun i => (h rhs).getD i 0 - mv op false (h x) i

theorem residual_default [Field K] [DecidableEq K] (op : Op K)
    (hd : ∀ x rhs r h, residual op x rhs r h = (run op false false x r h).bind fun h => assign3At h r (-1) rhs 1) :
    ResidualOK op := by
  intro x rhs r h p hr hb hl
  obtain ⟨h1, e1, g1⟩ := claim_all op false false x r h p
  have hrhs : h1 rhs = h rhs := g1.frame rhs hr hb
  obtain ⟨h2, e2, g2⟩ := assign3At_good h1 r op.shape.1 rhs (-1) 1 (by rw [g1.len]; exact p.ly) (by rw [hrhs]; exact hl)
  refine ⟨h2, ?_, fun i hi => ?_, fun a ha hab => ?_, fun a => by rw [g2.len, g1.len]⟩
  · rw [hd, e1]; exact e2
  · rw [g2.val i hi, g1.val i hi, hrhs]; simp; ring
  · rw [g2.frame a ha (by simp), g1.frame a ha hab]

theorem residual_all [Field K] [DecidableEq K] (op : Op K) : ResidualOK op := by
  induction op with
  | csr A =>
    intro x rhs r h p hr hb hl
    have e := Props.C08.residual_correct A p.wf (h x) (h rhs) (h r) p.ly
    have lx : (h x).length = A.numCols := p.lx
    have ly : (h r).length = A.numRows := p.ly
    have hl' : (h rhs).length = A.numRows := hl
    refine ⟨_, if_pos ⟨by omega, by omega, by omega⟩, fun i hi => ?_, fun a ha _ => put_other _ _ _ _ ha, fun a => ?_⟩
    · rw [put_self, e.2 i hi]; rfl
    · unfold put; split
      · subst_vars; rw [e.1]; exact ly.symm
      · rfl
  | prod A B b ihA ihB =>
    intro x rhs r h p hr hb hl
    obtain ⟨hs, hbA, hbB, wA, wB⟩ := p.wf
    obtain ⟨sb, sA, sB⟩ := p.sized
    have xb := p.xb
    have yb := p.yb
    simp only [Op.bufs, List.mem_cons, List.mem_append, not_or] at xb yb hb
    have lx : (h x).length = B.shape.2 := p.lx
    have sb' : (h b).length = B.shape.1 := by rw [sb, hs]
    obtain ⟨h1, e1, g1⟩ := claim_all B false false x b h ⟨wB, p.ok.2, sB, xb.2.2, hbB, xb.1, lx, sb'⟩
    have hrhs : h1 rhs = h rhs := g1.frame rhs hb.1 hb.2.2
    obtain ⟨h2, e2, g2⟩ := ihA b rhs r h1 ⟨wA, p.ok.1, sized_of_len g1.len A sA, hbA, yb.2.1, fun e => yb.1 e.symm,
      by rw [g1.len]; exact sb, by rw [g1.len]; exact p.ly⟩ hr hb.2.1 (by rw [g1.len]; exact hl)
    refine ⟨h2, ?_, fun i hi => ?_, fun a ha hab => ?_, fun a => by rw [g2.len, g1.len]⟩
    · simp only [residual]
      rw [if_pos ⟨lx.symm, sb'.symm⟩]
      simp only [Option.bind_eq_bind, e1, Option.bind_some]
      exact e2
    · rw [g2.val i hi, hrhs, mv_prod A B b (h x) (h1 b) i fun k hk => ?_]
      rw [g1.val k (by show k < B.shape.1; omega)]
      simp
    · simp only [Op.bufs, List.mem_cons, List.mem_append, not_or] at hab
      rw [g2.frame a ha hab.2.1, g1.frame a hab.1 hab.2.2]
  | _ => exact residual_default _ fun _ _ _ _ => rfl

end PyNucleus.OpAlgebra
